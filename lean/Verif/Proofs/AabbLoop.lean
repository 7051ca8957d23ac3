import Verif.Proofs.Aabb

set_option autoImplicit false
namespace Gpy
open Np
variable {d : ℕ}

/-- an already processed row that holds one element -/
def LeafOk (n : AabbNode d) : Prop := n.ch0 = -1 ∧ n.ch1 = -1 ∧ ∃ e : ℕ, n.tris = [e] ∧ n.tri = e

/-- an already processed row that has been split -/
def InnerOk (T : List (AabbNode d)) (q : ℕ) (n : AabbNode d) : Prop :=
  ∃ (c : ℕ) (l r : List ℕ), n.ch0 = c ∧ n.ch1 = (c + 1 : ℕ) ∧ q < c ∧ (T[c]?).map (·.tris) = some l ∧
    (T[c + 1]?).map (·.tris) = some r ∧ (l ++ r).Perm n.tris ∧ 0 ≤ n.split ∧ n.split < d

structure LoopInv (bx : ℕ → Pt d × Pt d) (root : AabbNode d) (m i : ℕ) (T : List (AabbNode d)) : Prop where
  le : i ≤ T.length
  rootRow : ∃ r, T[0]? = some r ∧ r.tris = List.range m ∧ r.C = root.C ∧ r.W = root.W ∧ r.par = -1 ∧ r.D = 1
  proc : ∀ (q : ℕ) (n : AabbNode d), q < i → T[q]? = some n → LeafOk n ∨ InnerOk T q n
  unproc : ∀ (q : ℕ) (n : AabbNode d), i ≤ q → T[q]? = some n → n.ch0 = -1 ∧ n.ch1 = -1 ∧ n.tri = -1 ∧ n.tris ≠ []
  rng : ∀ (q : ℕ) (n : AabbNode d), T[q]? = some n → ∀ e ∈ n.tris, e < m
  hull : ∀ (q : ℕ) (n : AabbNode d), 0 < q → T[q]? = some n → Hull bx n
  count : i + ((T.drop i).map (fun n : AabbNode d => 2 * n.tris.length - 1)).sum + 1 = 2 * m
  par : ∀ (q : ℕ) (n : AabbNode d), 0 < q → T[q]? = some n → ∃ (p : ℕ) (np : AabbNode d), T[p]? = some np ∧ p < q ∧ p < i ∧ n.par = p ∧ n.D = np.D + 1 ∧
    (np.ch0 = q ∨ np.ch1 = q)
  front : ((T.filter (fun n => n.ch1 = -1)).flatMap (·.tris)).Perm (List.range m)

theorem getElem?_set_other {α : Type*} {T : List α} {i q : ℕ} {a n : α} (h : (T.set i a)[q]? = some n) (hq : q ≠ i) :
    T[q]? = some n := by
  rwa [List.getElem?_set_ne (Ne.symm hq)] at h

theorem getElem?_set_self' {α : Type*} {T : List α} {i : ℕ} {a n : α} (h : (T.set i a)[i]? = some n) : n = a := by
  rw [List.getElem?_set] at h
  split at h <;> simp_all

theorem map_tris_set {T : List (AabbNode d)} {i : ℕ} {node node' : AabbNode d} (hT : T[i]? = some node)
    (h : node'.tris = node.tris) (c : ℕ) : ((T.set i node')[c]?).map (·.tris) = (T[c]?).map (·.tris) := by
  rw [List.getElem?_set]
  have hi : i < T.length := (List.getElem?_eq_some_iff.mp hT).1
  split
  · next h' => subst h'; rw [hT]; simp [h]
  · rfl

theorem set_split {α : Type*} {T : List α} {i : ℕ} {a b : α} (hT : T[i]? = some a) :
    T = T.take i ++ a :: T.drop (i + 1) ∧ T.set i b = T.take i ++ b :: T.drop (i + 1) := by
  obtain ⟨hi, hg⟩ := List.getElem?_eq_some_iff.mp hT
  subst hg
  constructor
  · simp
  · rw [List.set_eq_take_append_cons_drop, if_pos hi]

theorem drop_of_get {α : Type*} {T : List α} {i : ℕ} {a : α} (hT : T[i]? = some a) : T.drop i = a :: T.drop (i + 1) := by
  obtain ⟨hi, hg⟩ := List.getElem?_eq_some_iff.mp hT
  subst hg
  exact List.drop_eq_getElem_cons hi

theorem step_leaf {bx : ℕ → Pt d × Pt d} {root : AabbNode d} {m i : ℕ} {T : List (AabbNode d)} (I : LoopInv bx root m i T)
    {node : AabbNode d} (hT : T[i]? = some node) {e : ℕ} (he : node.tris = [e]) :
    LoopInv bx root m (i + 1) (T.set i { node with tri := (e : Int) }) := by
  have hi : i < T.length := (List.getElem?_eq_some_iff.mp hT).1
  obtain ⟨hc0, hc1, -, -⟩ := I.unproc i node le_rfl hT
  have hget : ∀ q n, (T.set i { node with tri := (e : Int) })[q]? = some n →
      (q = i ∧ n = { node with tri := (e : Int) }) ∨ (q ≠ i ∧ T[q]? = some n) := by
    intro q n h
    by_cases hq : q = i
    · subst hq; exact Or.inl ⟨rfl, getElem?_set_self' h⟩
    · exact Or.inr ⟨hq, getElem?_set_other h hq⟩
  constructor
  · simp; omega
  · obtain ⟨r, h0, h1, h2, h3, h4, h5⟩ := I.rootRow
    by_cases h : i = 0
    · subst h
      rw [hT] at h0; cases h0
      exact ⟨{ node with tri := (e : Int) }, by simp [hi], h1, h2, h3, h4, h5⟩
    · exact ⟨r, by rw [List.getElem?_set_ne h]; exact h0, h1, h2, h3, h4, h5⟩
  · intro q n hq hn
    rcases hget q n hn with ⟨rfl, rfl⟩ | ⟨hne, hn⟩
    · exact Or.inl ⟨hc0, hc1, e, he, rfl⟩
    · rcases I.proc q n (by omega) hn with h | ⟨c, l, r, a1, a2, a3, a4, a5, a6, a7⟩
      · exact Or.inl h
      · exact Or.inr ⟨c, l, r, a1, a2, a3, by rw [map_tris_set hT (by rfl)]; exact a4, by rw [map_tris_set hT (by rfl)]; exact a5, a6, a7⟩
  · intro q n hq hn
    rcases hget q n hn with ⟨rfl, rfl⟩ | ⟨hne, hn⟩
    · omega
    · exact I.unproc q n (by omega) hn
  · intro q n hn
    rcases hget q n hn with ⟨rfl, rfl⟩ | ⟨hne, hn⟩
    · exact I.rng _ node hT
    · exact I.rng q n hn
  · intro q n hq hn
    rcases hget q n hn with ⟨rfl, rfl⟩ | ⟨hne, hn⟩
    · have := I.hull q node hq hT
      exact ⟨this.lo, this.hi, this.lo', this.hi'⟩
    · exact I.hull q n hq hn
  · have := I.count
    rw [drop_of_get hT] at this
    rw [List.drop_set_of_lt (by omega)]
    simp only [List.map_cons, List.sum_cons, he, List.length_singleton] at this
    omega
  · intro q n hq hn
    have key : ∀ n' : AabbNode d, T[q]? = some n' → n'.par = n.par → n'.D = n.D →
        ∃ (p : ℕ) (np : AabbNode d), (T.set i { node with tri := (e : Int) })[p]? = some np ∧ p < q ∧ p < i + 1 ∧ n.par = p ∧ n.D = np.D + 1 ∧
          (np.ch0 = q ∨ np.ch1 = q) := by
      intro n' hn' h1 h2
      obtain ⟨p, np, b1, b2, b3, b4, b5, b6⟩ := I.par q n' hq hn'
      exact ⟨p, np, by rw [List.getElem?_set_ne (by omega)]; exact b1, b2, by omega, by rw [← h1]; exact b4,
        by rw [← h2]; exact b5, b6⟩
    rcases hget q n hn with ⟨rfl, rfl⟩ | ⟨hne, hn⟩
    · exact key node hT rfl rfl
    · exact key n hn rfl rfl
  · obtain ⟨s1, s2⟩ := set_split (b := { node with tri := (e : Int) }) hT
    have hf := I.front
    rw [s1] at hf
    rw [s2]
    simpa [List.filter_append, List.filter_cons, hc1] using hf

theorem step_inner {bx : ℕ → Pt d × Pt d} {root : AabbNode d} {m i : ℕ} {T : List (AabbNode d)} (I : LoopInv bx root m i T)
    {node : AabbNode d} (hT : T[i]? = some node) {cl cr : AabbNode d} {b : Fin d}
    (hp : (cl.tris ++ cr.tris).Perm node.tris) (hl : cl.tris.length = node.tris.length / 2) (h2 : 2 ≤ node.tris.length)
    (hcl : cl = freshNode cl.C cl.W i (node.D + 1) cl.tris) (hcr : cr = freshNode cr.C cr.W i (node.D + 1) cr.tris)
    (Hl : Hull bx cl) (Hr : Hull bx cr) :
    LoopInv bx root m (i + 1)
      (T.set i { node with ch0 := T.length, ch1 := T.length + 1, split := b.val } ++ [cl, cr]) := by
  have hi : i < T.length := (List.getElem?_eq_some_iff.mp hT).1
  have hlen := hp.length_eq
  rw [List.length_append] at hlen
  have hnel : cl.tris ≠ [] := by intro h; rw [h] at hl; simp at hl; omega
  have hner : cr.tris ≠ [] := by intro h; rw [h] at hlen; simp at hlen; omega
  set node' : AabbNode d := { node with ch0 := T.length, ch1 := T.length + 1, split := b.val } with hnode'
  have hlen' : (T.set i node').length = T.length := by simp
  have htr' : node'.tris = node.tris := rfl
  have hold : ∀ q, q < T.length → (T.set i node' ++ [cl, cr])[q]? = (T.set i node')[q]? := by
    intro q hq; rw [List.getElem?_append_left (by simpa using hq)]
  have hget : ∀ q n, (T.set i node' ++ [cl, cr])[q]? = some n →
      (q = i ∧ n = node') ∨ (q ≠ i ∧ q < T.length ∧ T[q]? = some n) ∨ (q = T.length ∧ n = cl) ∨ (q = T.length + 1 ∧ n = cr) := by
    intro q n h
    by_cases hq : q < T.length
    · rw [hold q hq] at h
      by_cases hqi : q = i
      · subst hqi; exact Or.inl ⟨rfl, getElem?_set_self' h⟩
      · exact Or.inr (Or.inl ⟨hqi, hq, getElem?_set_other h hqi⟩)
    · rw [List.getElem?_append_right (by simp; omega), hlen'] at h
      have : q - T.length < 2 := by
        have := (List.getElem?_eq_some_iff.mp h).1
        simpa using this
      rcases (show q = T.length ∨ q = T.length + 1 by omega) with rfl | rfl
      · simp at h; exact Or.inr (Or.inr (Or.inl ⟨rfl, h.symm⟩))
      · simp at h; exact Or.inr (Or.inr (Or.inr ⟨rfl, h.symm⟩))
  have gl : (T.set i node' ++ [cl, cr])[T.length]? = some cl := by
    rw [List.getElem?_append_right (by simp), hlen']; simp
  have gr : (T.set i node' ++ [cl, cr])[T.length + 1]? = some cr := by
    rw [List.getElem?_append_right (by simp), hlen']; simp
  have gi : (T.set i node' ++ [cl, cr])[i]? = some node' := by
    rw [hold i hi]; simp [hi]
  have fl : cl.ch0 = -1 ∧ cl.ch1 = -1 ∧ cl.tri = -1 ∧ cl.par = i ∧ cl.D = node.D + 1 := by rw [hcl]; simp [freshNode]
  have fr : cr.ch0 = -1 ∧ cr.ch1 = -1 ∧ cr.tri = -1 ∧ cr.par = i ∧ cr.D = node.D + 1 := by rw [hcr]; simp [freshNode]
  obtain ⟨hc0, hc1, -, -⟩ := I.unproc i node le_rfl hT
  constructor
  · simp; omega
  · obtain ⟨r, h0, h1, h2, h3, h4, h5⟩ := I.rootRow
    by_cases h : i = 0
    · subst h
      rw [hT] at h0; cases h0
      exact ⟨node', gi, h1, h2, h3, h4, h5⟩
    · exact ⟨r, by rw [hold 0 (by omega), List.getElem?_set_ne h]; exact h0, h1, h2, h3, h4, h5⟩
  · intro q n hq hn
    rcases hget q n hn with ⟨rfl, rfl⟩ | ⟨hne, hq', hn⟩ | ⟨rfl, rfl⟩ | ⟨rfl, rfl⟩
    · refine Or.inr ⟨T.length, cl.tris, cr.tris, rfl, by simp [hnode'], hi, by rw [gl]; rfl, by rw [gr]; rfl, hp, ?_, ?_⟩
      · simp [hnode']
      · simp [hnode']
    · rcases I.proc q n (by omega) hn with h | ⟨c, l, r, a1, a2, a3, a4, a5, a6, a7⟩
      · exact Or.inl h
      · have c1 : c + 1 < T.length := by
          by_contra hc
          rw [List.getElem?_eq_none (by omega)] at a5; simp at a5
        exact Or.inr ⟨c, l, r, a1, a2, a3, by rw [hold c (by omega), map_tris_set hT htr']; exact a4,
          by rw [hold _ c1, map_tris_set hT htr']; exact a5, a6, a7⟩
    · omega
    · omega
  · intro q n hq hn
    rcases hget q n hn with ⟨rfl, rfl⟩ | ⟨hne, hq', hn⟩ | ⟨rfl, rfl⟩ | ⟨rfl, rfl⟩
    · omega
    · exact I.unproc q n (by omega) hn
    · exact ⟨fl.1, fl.2.1, fl.2.2.1, hnel⟩
    · exact ⟨fr.1, fr.2.1, fr.2.2.1, hner⟩
  · intro q n hn
    rcases hget q n hn with ⟨rfl, rfl⟩ | ⟨hne, hq', hn⟩ | ⟨rfl, rfl⟩ | ⟨rfl, rfl⟩
    · exact I.rng _ node hT
    · exact I.rng q n hn
    · exact fun e he => I.rng i node hT e (hp.subset (by simp [he]))
    · exact fun e he => I.rng i node hT e (hp.subset (by simp [he]))
  · intro q n hq hn
    rcases hget q n hn with ⟨rfl, rfl⟩ | ⟨hne, hq', hn⟩ | ⟨rfl, rfl⟩ | ⟨rfl, rfl⟩
    · have := I.hull q node hq hT
      exact ⟨this.lo, this.hi, this.lo', this.hi'⟩
    · exact I.hull q n hq hn
    · exact Hl
    · exact Hr
  · have := I.count
    rw [drop_of_get hT] at this
    rw [List.drop_append_of_le_length (by simp; omega), List.drop_set_of_lt (by omega)]
    simp only [List.map_cons, List.sum_cons, List.map_append, List.sum_append, List.map_nil, List.sum_nil] at this ⊢
    omega
  · intro q n hq hn
    have key : ∀ n' : AabbNode d, q < T.length → T[q]? = some n' → n'.par = n.par → n'.D = n.D →
        ∃ (p : ℕ) (np : AabbNode d), (T.set i node' ++ [cl, cr])[p]? = some np ∧ p < q ∧ p < i + 1 ∧ n.par = p ∧ n.D = np.D + 1 ∧
          (np.ch0 = q ∨ np.ch1 = q) := by
      intro n' hq' hn' h1 h2
      obtain ⟨p, np, b1, b2, b3, b4, b5, b6⟩ := I.par q n' hq hn'
      exact ⟨p, np, by rw [hold p (by omega), List.getElem?_set_ne (by omega)]; exact b1, b2, by omega,
        by rw [← h1]; exact b4, by rw [← h2]; exact b5, b6⟩
    rcases hget q n hn with ⟨rfl, rfl⟩ | ⟨hne, hq', hn⟩ | ⟨rfl, rfl⟩ | ⟨rfl, rfl⟩
    · exact key node hi hT rfl rfl
    · exact key n hq' hn rfl rfl
    · exact ⟨i, node', gi, hi, by omega, fl.2.2.2.1, fl.2.2.2.2, Or.inl (by simp [hnode'])⟩
    · exact ⟨i, node', gi, by omega, by omega, fr.2.2.2.1, fr.2.2.2.2, Or.inr (by simp [hnode'])⟩
  · obtain ⟨s1, s2⟩ := set_split (b := node') hT
    have hf := I.front
    rw [s1] at hf
    rw [s2]
    have hn1 : ¬ node'.ch1 = -1 := by simp [hnode']; omega
    simp only [List.filter_append, List.filter_cons, List.filter_nil, hc1, hn1, fl.2.1, fr.2.1, decide_true, decide_false, if_true,
      Bool.false_eq_true, if_false, List.flatMap_append, List.flatMap_cons, List.flatMap_nil, List.append_nil] at hf ⊢
    refine List.Perm.trans ?_ hf
    rw [List.append_assoc]
    apply List.Perm.append_left
    exact List.perm_append_comm.trans (hp.append_right _)

theorem aabbLoop_spec [NeZero d] {argsort : List ℝ → List ℕ} (hA : IsArgsort argsort)
    {boxes : List (Pt d × Pt d)} {bx : ℕ → Pt d × Pt d} (hbx : bx = fun e => boxes.getD e (0, 0))
    {root : AabbNode d} {m : ℕ} (hm : boxes.length = m) :
    ∀ (fuel i : ℕ) (T : List (AabbNode d)), LoopInv bx root m i T → 2 * m ≤ i + fuel + 1 →
      ∃ T', aabbLoop argsort boxes fuel i T = some T' ∧ LoopInv bx root m T'.length T' := by
  intro fuel
  induction fuel with
  | zero =>
    intro i T I hf
    have hc := I.count
    have : T.length ≤ i := by
      by_contra h
      have hi : i < T.length := by omega
      obtain ⟨node, hT⟩ : ∃ node, T[i]? = some node := ⟨T[i], List.getElem?_eq_getElem hi⟩
      have := (I.unproc i node le_rfl hT).2.2.2
      have : 0 < node.tris.length := List.length_pos_iff.mpr this
      rw [drop_of_get hT] at hc
      simp at hc
      omega
    refine ⟨T, ?_, ?_⟩
    · unfold aabbLoop; rw [if_pos this]
    · have : i = T.length := le_antisymm I.le this
      rw [← this]; exact I
  | succ fuel ih =>
    intro i T I hf
    by_cases h : T.length ≤ i
    · refine ⟨T, ?_, ?_⟩
      · unfold aabbLoop; rw [if_pos h]
      · have : i = T.length := le_antisymm I.le h
        rw [← this]; exact I
    · have hi : i < T.length := by omega
      obtain ⟨node, hT⟩ : ∃ node, T[i]? = some node := ⟨T[i], List.getElem?_eq_getElem hi⟩
      obtain ⟨u0, u1, u2, u3⟩ := I.unproc i node le_rfl hT
      have hpos : 0 < node.tris.length := List.length_pos_iff.mpr u3
      unfold aabbLoop
      rw [if_neg h]
      simp only [hT, Option.bind_eq_bind, Option.bind_some]
      rw [if_neg (by simp [u1]), if_neg (by omega)]
      by_cases h2 : 2 ≤ node.tris.length
      · rw [if_pos h2]
        obtain ⟨cl, cr, b, e1, e2, e3, e4, e5, e6, e7, -⟩ := subdivideBox_spec hA hbx hT h2
          (fun e he => by rw [hm]; exact I.rng i node hT e he)
        rw [e1, Option.bind_some]
        exact ih (i + 1) _ (step_inner I hT e2 e3 h2 e4 e5 e6 e7) (by omega)
      · rw [if_neg h2]
        obtain ⟨e, he⟩ : ∃ e, node.tris = [e] := List.length_eq_one_iff.mp (by omega)
        simp only [he, List.getElem?_cons_zero, Option.bind_some]
        have := step_leaf I hT he
        simp only [he] at this
        exact ih (i + 1) _ this (by omega)

/-- what the invariant says when the loop has finished -/
theorem LoopInv.covers {bx : ℕ → Pt d × Pt d} {root : AabbNode d} {m : ℕ} {T : List (AabbNode d)}
    (I : LoopInv bx root m T.length T) {V : List (Pt d)} {F : List (List ℕ)}
    (hb : ∀ (q : ℕ) (n : AabbNode d), T[q]? = some n → ∀ e ∈ n.tris, ElemIn V F n e) :
    ∀ (k q : ℕ) (n : AabbNode d), T.length ≤ q + k → T[q]? = some n → ∃ es, Covers V F T q es ∧ es.Perm n.tris := by
  intro k
  induction k with
  | zero =>
    intro q n hq hn
    rw [List.getElem?_eq_none (by omega)] at hn; simp at hn
  | succ k ih =>
    intro q n hq hn
    have hql : q < T.length := (List.getElem?_eq_some_iff.mp hn).1
    rcases I.proc q n hql hn with ⟨h0, h1, e, he, ht⟩ | ⟨c, l, r, a1, a2, a3, a4, a5, a6, -⟩
    · exact ⟨[e], Covers.leaf hn h1 h0 ht (hb q n hn e (by simp [he])), by rw [he]⟩
    · obtain ⟨nl, g1, rfl⟩ := Option.map_eq_some_iff.mp a4
      obtain ⟨nr, g2, rfl⟩ := Option.map_eq_some_iff.mp a5
      obtain ⟨el, p1, p2⟩ := ih c nl (by omega) g1
      obtain ⟨er, p3, p4⟩ := ih (c + 1) nr (by omega) g2
      have hperm := (p2.append p4).trans a6
      exact ⟨el ++ er, Covers.node hn a1 a2 p1 p3 (fun e he => hb q n hn e (hperm.subset he)), hperm⟩

theorem LoopInv.init {bx : ℕ → Pt d × Pt d} {C W : Pt d} {m : ℕ} (hm : 0 < m) :
    LoopInv bx (freshNode C W (-1) 1 (List.range m)) m 0 [freshNode C W (-1) 1 (List.range m)] := by
  constructor
  · simp
  · exact ⟨_, rfl, rfl, rfl, rfl, rfl, rfl⟩
  · intro q n hq; omega
  · intro q n _ hn
    have : q = 0 := by have := (List.getElem?_eq_some_iff.mp hn).1; simpa using this
    subst this
    simp at hn
    subst hn
    refine ⟨rfl, rfl, rfl, ?_⟩
    intro h
    have := congrArg List.length h
    simp [freshNode] at this; omega
  · intro q n hn e he
    have : q = 0 := by have := (List.getElem?_eq_some_iff.mp hn).1; simpa using this
    subst this
    simp at hn
    subst hn
    simpa [freshNode] using he
  · intro q n hq hn
    have : q = 0 := by have := (List.getElem?_eq_some_iff.mp hn).1; simpa using this
    omega
  · simp [freshNode]; omega
  · intro q n hq hn
    have : q = 0 := by have := (List.getElem?_eq_some_iff.mp hn).1; simpa using this
    omega
  · simp [freshNode]

end Gpy
