import Verif.Lemmas.KdTree

set_option autoImplicit false

/-! Properties C07 and C08: kd-tree queries. -/
namespace Maliput.Props
open Maliput Maliput.Spec Maliput.KdTree

/-- C07: for every non-empty collection in every dimension, every query point and every positive
tolerance, building the tree and asking for the nearest point succeeds, and the answer is a stored
element such that no stored element is closer, unless it is closer than the tolerance. -/
theorem kdTree_nearest {d : ℕ} [NeZero d] {P : Type} {coord : P → Fin d → ℚ} (nth : NthElement coord)
    (points : List P) (hne : points ≠ []) (q : Fin d → ℚ) (tol : ℚ) (htol : 0 < tol) :
    ∃ t m, KdTree.make nth points = .ok t ∧ nearestPoint coord t q tol = .ok m ∧
      NearestAnswer coord points q tol m := by
  have hne' : (!points.isEmpty) = true := by simpa using hne
  obtain ⟨hp, ho⟩ := makeKdTree_spec nth points.length points 0 le_rfl
  have hmake : KdTree.make nth points = .ok (makeKdTree nth points.length points 0) := by
    unfold KdTree.make; rw [hne']; rfl
  revert hp ho hmake
  generalize makeKdTree nth points.length points 0 = t
  intro hp ho hmake
  cases t with
  | nil => exact absurd (List.nil_perm.mp hp) hne
  | node p j l r =>
    obtain ⟨b, h1, h2, h3, h4, h5⟩ := nearestRec_some coord q tol (.node p j l r) 0
      (p, squaredDistance (coord p) q) ho (squaredDistance_eq _ _)
    have htol' : tol > 0 := htol
    refine ⟨_, b.1, hmake, ?_, ?_, ?_⟩
    · unfold nearestPoint
      simp only [nearestRec_none, h1, decide_eq_true htol', throwUnless_true]
      rfl
    · rcases h3 with h3 | h3
      · rw [h3]; exact hp.mem_iff.mp (by simp [Tree.elems])
      · exact hp.mem_iff.mp h3
    · rw [← h2]
      rcases h5 with h5 | h5
      · exact Or.inl h5
      · exact Or.inr (fun x hx => h5 x (hp.mem_iff.mpr hx))

/-- C07: a tree of no points and a non-positive tolerance are rejected. -/
theorem kdTree_rejects {d : ℕ} [NeZero d] {P : Type} {coord : P → Fin d → ℚ} (nth : NthElement coord)
    (t : Tree d P) (q : Fin d → ℚ) (tol : ℚ) (htol : tol ≤ 0) :
    KdTree.make nth [] = .error .throws ∧ nearestPoint coord t q tol = .error .throws := by
  refine ⟨rfl, ?_⟩
  unfold nearestPoint
  cases t with
  | nil => rfl
  | node p j l r =>
    have : ¬ tol > 0 := not_lt.mpr htol
    simp only [decide_eq_false this, throwUnless_false]
    rfl

/-- C08: for every non-empty collection and every valid box, building the tree and searching succeed,
and the stored elements split (as a multiset, each stored element once) into the reported ones, which
are all in the box widened by its tolerance, and the rest, none of which is in the box. -/
theorem kdTree_rangeSearch {P : Type} {coord : P → Fin 3 → ℚ} (nth : NthElement coord)
    (points : List P) (hne : points ≠ []) (box : AxisAlignedBox) (hb : ValidBox box) :
    ∃ t rest, make3d nth points = .ok t ∧
      (rangeSearch coord box t ++ rest).Perm points ∧
      (∀ x ∈ rangeSearch coord box t, InBox box box.tolerance (position coord x)) ∧
      (∀ x ∈ rest, ¬ Mem box (position coord x)) := by
  obtain ⟨t, h1, h2, h3⟩ := make3d_spec nth points hne
  obtain ⟨rest, h4, h5, h6⟩ := rangeSearch_spec coord box hb t h3
  exact ⟨t, rest, h1, h4.trans h2, h5, h6⟩

/-- C08 for a box with tolerance zero: the result is exactly the stored elements the box contains. -/
theorem kdTree_rangeSearch_exact_partial {P : Type} {coord : P → Fin 3 → ℚ} (nth : NthElement coord)
    (points : List P) (hne : points ≠ []) (box : AxisAlignedBox) (hb : ValidBox box)
    (ht : box.tolerance = 0) :
    ∃ t, make3d nth points = .ok t ∧
      (rangeSearch coord box t).Perm (points.filter fun x => box.contains (position coord x)) := by
  obtain ⟨t, rest, h1, h2, h3, h4⟩ := kdTree_rangeSearch nth points hne box hb
  refine ⟨t, h1, ?_⟩
  have h5 := h2.filter (fun x => box.contains (position coord x))
  rw [List.filter_append] at h5
  have e1 : (rangeSearch coord box t).filter (fun x => box.contains (position coord x))
      = rangeSearch coord box t := by
    rw [List.filter_eq_self]
    intro x hx
    exact (AxisAlignedBox.contains_iff _ _).mpr (h3 x hx)
  have e2 : rest.filter (fun x => box.contains (position coord x)) = [] := by
    rw [List.filter_eq_nil_iff]
    intro x hx hc
    have := (AxisAlignedBox.contains_iff _ _).mp hc
    rw [ht, AxisAlignedBox.inBox_zero] at this
    exact h4 x hx this
  rwa [e1, e2, List.append_nil] at h5

/-- Seven points on the x axis (in hundredths). -/
def witnessPoints : List ℤ := [-3, -2, -1, 0, 100, 200, 300]
/-- Their coordinates. -/
def witnessCoord (n : ℤ) : Fin 3 → ℚ := fun i => if i = 0 then (n : ℚ) / 100 else 0
/-- A box whose left side is at x = 0.05, with tolerance 0.1. -/
def witnessBox : AxisAlignedBox :=
  ⟨![Ext.fin (1/20), Ext.fin (-1), Ext.fin (-1)], ![Ext.fin 10, Ext.fin 1, Ext.fin 1], 1/10⟩

/-- C08 as stated is false of the code when the box has a positive tolerance: a stored point that
`box.Contains` accepts (x = -0.01) is not reported, because subtrees are discarded by comparing
regions without the tolerance. -/
theorem kdTree_rangeSearch_misses :
    ∃ t, make3d (sortNth witnessCoord) witnessPoints = .ok t ∧ ValidBox witnessBox ∧ (-1) ∈ witnessPoints ∧
      witnessBox.contains (position witnessCoord (-1)) = true ∧
      (-1) ∉ rangeSearch witnessCoord witnessBox t := by
  obtain ⟨t, h, -, -⟩ := make3d_spec (sortNth witnessCoord) witnessPoints (by decide)
  refine ⟨t, h, ?_, by decide, by decide +kernel, ?_⟩
  · refine ⟨by norm_num [witnessBox], ?_⟩
    rw [forall_fin3]
    refine ⟨Ext.fin_le.mpr (by norm_num), Ext.fin_le.mpr (by norm_num), Ext.fin_le.mpr (by norm_num)⟩
  · have hd : (match make3d (sortNth witnessCoord) witnessPoints with
        | .ok t => decide ((-1) ∉ rangeSearch witnessCoord witnessBox t)
        | .error _ => false) = true := by decide +kernel
    rw [h] at hd
    simpa using hd

/-- The hypotheses of the kd-tree theorems are met by these points; three of them are found. -/
example : (match make3d (sortNth witnessCoord) witnessPoints with
    | .ok t => rangeSearch witnessCoord { witnessBox with tolerance := 0 } t
    | .error _ => []) = [200, 100, 300] ∧
    (match KdTree.make (sortNth witnessCoord) witnessPoints with
    | .ok t => (nearestPoint witnessCoord t ![3/5, 0, 0] (1/1000)).toOption
    | .error _ => none) = some 100 := by
  refine ⟨by decide +kernel, by decide +kernel⟩

end Maliput.Props
