import Mathlib.Tactic.FinCases
import Mathlib.Data.Fintype.Basic
import Verif.Lemmas.Strategy

set_option autoImplicit false
namespace Maliput.Props
open Maliput Maliput.Spec Maliput.Strategy

variable {L : Type}

/-! ### C17: FindRoadPositions -/

/-- C17: for every radius that is not negative the brute force search returns one result for every lane
within the radius, in the order of the lanes, and each result is what its lane says. -/
theorem findRoadPositions_exact (g : Geometry L) (pos : Pos) (radius : WithTop ℚ)
    (h : ((0 : ℚ) : WithTop ℚ) ≤ radius) :
    ∃ rs, findRoadPositions g pos radius = .ok rs ∧
      rs.map RoadPositionResult.lane =
        (allLanes g).filter (fun l => decide ((laneDistance g pos l : WithTop ℚ) ≤ radius)) ∧
      ∀ x ∈ rs, Faithful g pos x := by
  refine ⟨_, findRoadPositions_eq g pos radius h, ?_, ?_⟩
  · rw [List.map_map]
    exact List.map_id _
  · intro x hx
    obtain ⟨l, -, rfl⟩ := List.mem_map.mp hx
    rfl

/-- C17: a negative radius is rejected. -/
theorem findRoadPositions_rejects (g : Geometry L) (pos : Pos) (radius : ℚ) (h : radius < 0) :
    findRoadPositions g pos radius = .error .throws := by
  unfold findRoadPositions
  have : ¬ ((0 : ℚ) : WithTop ℚ) ≤ (radius : WithTop ℚ) := by rw [WithTop.coe_le_coe]; linarith
  rw [decide_eq_false this, throwUnless_false]
  rfl

/-- C17: the results of the kd-tree search are among those of the brute force search. -/
theorem kdFindRoadPositions_sound (nth : KdTree.NthElement (coordOf (L := L))) (g : Geometry L) (lanes : List L)
    (hl : ∀ l, l ∈ lanes ↔ l ∈ allLanes g) (step : ℚ) (hstep : 0 < step)
    (hne : samplePoints g lanes step ≠ []) (pos : Pos) (radius : WithTop ℚ) (h : ((0 : ℚ) : WithTop ℚ) ≤ radius) :
    ∃ k kd bf, KdStrategy.make nth g lanes step = .ok k ∧ kdFindRoadPositions g k pos radius = .ok kd ∧
      findRoadPositions g pos radius = .ok bf ∧ ∀ x ∈ kd, x ∈ bf := by
  obtain ⟨k, hk, -, -, hrt⟩ := kdMake_spec nth g lanes step hne
  obtain ⟨ls, h1, -, h2, -⟩ := closestLanes_spec nth _ hne k hrt pos radius h
  refine ⟨k, (ls.filter fun l => decide ((laneDistance g pos l : WithTop ℚ) ≤ radius)).map (g.resultOn pos), _, hk, ?_,
    findRoadPositions_eq g pos radius h, ?_⟩
  · unfold kdFindRoadPositions
    rw [h1]
    have := foldl_filter (fun l => decide ((laneDistance g pos l : WithTop ℚ) ≤ radius)) (g.resultOn pos) ls []
    simp only [decide_eq_true_eq, List.nil_append] at this
    exact congrArg Except.ok this
  · intro x hx
    simp only [List.mem_map, List.mem_filter] at hx ⊢
    obtain ⟨l, ⟨hm, hd⟩, rfl⟩ := hx
    obtain ⟨p, hp, rfl⟩ := h2 l hm
    exact ⟨p.2, ⟨(hl _).mp ((mem_samplePoints g lanes step hstep p).mp hp).1, hd⟩, rfl⟩

/-- C17: the kd-tree search does find every lane within the radius that has a sample point in the cube with
half edge `radius` around the position. -/
theorem kdFindRoadPositions_complete_partial (nth : KdTree.NthElement (coordOf (L := L))) (g : Geometry L)
    (lanes : List L) (step : ℚ) (pos : Pos) (radius : WithTop ℚ) (h : ((0 : ℚ) : WithTop ℚ) ≤ radius)
    (p : MaliputPoint L) (hp : p ∈ samplePoints g lanes step)
    (hc : ∀ i, ((|p.1 i - pos i| : ℚ) : WithTop ℚ) ≤ radius)
    (hd : (laneDistance g pos p.2 : WithTop ℚ) ≤ radius) :
    ∃ k kd, KdStrategy.make nth g lanes step = .ok k ∧ kdFindRoadPositions g k pos radius = .ok kd ∧
      ∃ x ∈ kd, x.lane = p.2 := by
  have hne : samplePoints g lanes step ≠ [] := List.ne_nil_of_mem hp
  obtain ⟨k, hk, -, -, hrt⟩ := kdMake_spec nth g lanes step hne
  obtain ⟨ls, h1, -, -, h3⟩ := closestLanes_spec nth _ hne k hrt pos radius h
  refine ⟨k, (ls.filter fun l => decide ((laneDistance g pos l : WithTop ℚ) ≤ radius)).map (g.resultOn pos), hk, ?_, ?_⟩
  · unfold kdFindRoadPositions
    rw [h1]
    have := foldl_filter (fun l => decide ((laneDistance g pos l : WithTop ℚ) ≤ radius)) (g.resultOn pos) ls []
    simp only [decide_eq_true_eq, List.nil_append] at this
    exact congrArg Except.ok this
  · refine ⟨g.resultOn pos p.2, ?_, rfl⟩
    rw [List.mem_map]
    exact ⟨p.2, List.mem_filter.mpr ⟨h3 p hp hc, decide_eq_true hd⟩, rfl⟩

/-! A road geometry for the examples: three parallel straight lanes along x, 4 wide, 10 long, with
centerlines y = 0, 4 and 8; distances are measured with the maximum norm. -/

/-- The lane with index `l`. -/
def exToLane (l : Fin 3) (p : Pos) : LanePositionResult :=
  let s := max 0 (min (p 0) 10)
  let r := max (-2) (min (p 1 - 4 * (l.val : ℚ)) 2)
  let n : Pos := ![s, r + 4 * (l.val : ℚ), 0]
  ⟨s, r, 0, n, max |p 0 - n 0| (max |p 1 - n 1| |p 2|)⟩

/-- Two junctions, with two lanes and one lane. -/
def exGeometry : Geometry (Fin 3) where
  junctions := [[[0, 1]], [[2]]]
  toLanePosition := exToLane
  laneBounds := fun _ _ => (-2, 2)
  length := fun _ => 10
  toInertialPosition := fun l s r => ![s, r + 4 * (l.val : ℚ), 0]
  linearTolerance := 1 / 100

example : (findRoadPositions exGeometry ![5, 1, 0] (1 : ℚ)).toOption.map (List.map RoadPositionResult.lane) = some [0, 1] ∧
    allLanes exGeometry = [0, 1, 2] ∧ samplePoints exGeometry [2, 1, 0] 5 ≠ [] := by
  refine ⟨by decide +kernel, by decide +kernel, by decide +kernel⟩

/-- Witness that the kd-tree search is not exact: with sampling step 5 the position (5/2, 0, 0) is on lane
0, but no lane is found within distance 1; the brute force search finds the lane. -/
theorem kdFindRoadPositions_misses :
    ∃ k, KdStrategy.make (KdTree.sortNth coordOf) exGeometry [0, 1, 2] 5 = .ok k ∧
      kdFindRoadPositions exGeometry k ![5/2, 0, 0] (1 : ℚ) = .ok [] ∧
      (findRoadPositions exGeometry ![5/2, 0, 0] (1 : ℚ)).toOption.map (List.map RoadPositionResult.lane) = some [0] := by
  obtain ⟨k, hk, -⟩ := kdMake_spec (KdTree.sortNth coordOf) exGeometry [0, 1, 2] 5 (by decide +kernel)
  refine ⟨k, hk, ?_, by decide +kernel⟩
  have hd : (match KdStrategy.make (KdTree.sortNth coordOf) exGeometry [0, 1, 2] 5 with
      | .ok k => match kdFindRoadPositions exGeometry k ![5/2, 0, 0] (1 : ℚ) with
        | .ok rs => rs.isEmpty
        | .error _ => false
      | .error _ => false) = true := by decide +kernel
  rw [hk] at hd
  dsimp only at hd
  split at hd
  · rename_i rs e
    rw [e, List.isEmpty_iff.mp hd]
  · cases hd

/-! ### C18: ToRoadPosition -/

/-- C18: with a hint the position on the hinted lane is returned, whatever the distance. -/
theorem toRoadPosition_hint (g : Geometry L) (pos : Pos) (l : L) :
    ∃ x, toRoadPosition g pos (some (some l)) = .ok x ∧ x.lane = l ∧ Faithful g pos x :=
  ⟨_, rfl, rfl, rfl⟩

/-- C18: without lanes `ToRoadPosition` throws. -/
theorem toRoadPosition_empty (g : Geometry L) (pos : Pos) (h : allLanes g = []) :
    toRoadPosition g pos none = .error .throws := by
  unfold toRoadPosition
  rw [findRoadPositions_eq g pos ⊤ le_top, h]
  rfl

/-- The candidates of `ToRoadPosition`. -/
theorem toRoadPosition_candidates (g : Geometry L) (pos : Pos) (h : allLanes g ≠ []) :
    ∃ l ls, toRoadPosition g pos none = .ok (pickClosest g ((l :: ls).map (g.resultOn pos)) (g.resultOn pos l)) ∧
      (∀ m, m ∈ l :: ls → m ∈ allLanes g) ∧ (l :: ls).length ≤ (allLanes g).length ∧
      (∀ m ∈ allLanes g, m ∈ l :: ls ∨
        (g.linearTolerance < laneDistance g pos m ∧ ∀ k ∈ l :: ls, laneDistance g pos k ≤ g.linearTolerance)) ∧
      ((∃ m ∈ allLanes g, laneDistance g pos m ≤ g.linearTolerance) →
        ∀ k ∈ l :: ls, laneDistance g pos k ≤ g.linearTolerance) := by
  have hf : findRoadPositions g pos ⊤ = .ok ((allLanes g).map (g.resultOn pos)) := by
    rw [findRoadPositions_eq g pos ⊤ le_top]
    simp
  have hemp : (!((allLanes g).map (g.resultOn pos)).isEmpty) = true := by
    cases hh : allLanes g with
    | nil => exact absurd hh h
    | cons a t => rfl
  have hnear : filterRoadPositionResults ((allLanes g).map (g.resultOn pos)) (fun r => decide (r.distance ≤ g.linearTolerance))
      = ((allLanes g).filter (fun l => decide (laneDistance g pos l ≤ g.linearTolerance))).map (g.resultOn pos) := by
    unfold filterRoadPositionResults
    rw [List.filter_map]
    rfl
  unfold toRoadPosition
  rw [hf]
  simp only [bind, Except.bind, hemp, throwUnless_true, hnear]
  cases hc : (allLanes g).filter (fun l => decide (laneDistance g pos l ≤ g.linearTolerance)) with
  | nil =>
    have hfar : ∀ m ∈ allLanes g, ¬ laneDistance g pos m ≤ g.linearTolerance := by
      intro m hm
      have := List.filter_eq_nil_iff.mp hc m hm
      simpa using this
    cases hh : allLanes g with
    | nil => exact absurd hh h
    | cons a t =>
      refine ⟨a, t, rfl, fun m hm => hm, Nat.le_refl _, fun m hm => Or.inl hm, ?_⟩
      rintro ⟨m, hm, hd⟩
      exact absurd hd (hfar m (hh ▸ hm))
  | cons a t =>
    have hmem : ∀ m, m ∈ a :: t ↔ m ∈ allLanes g ∧ laneDistance g pos m ≤ g.linearTolerance := by
      intro m; rw [← hc, List.mem_filter, decide_eq_true_iff]
    refine ⟨a, t, rfl, fun m hm => ((hmem m).mp hm).1, ?_, ?_, ?_⟩
    · rw [← hc]; exact List.length_filter_le _ _
    · intro m hm
      by_cases hd : laneDistance g pos m ≤ g.linearTolerance
      · exact Or.inl ((hmem m).mpr ⟨hm, hd⟩)
      · exact Or.inr ⟨not_le.mp hd, fun k hk => ((hmem k).mp hk).2⟩
    · intro _ k hk
      exact ((hmem k).mp hk).2

/-- C18: without a hint, if there is a lane, `ToRoadPosition` returns what some lane of the road geometry
says about the position; if any lane is within linear tolerance, then the returned one is. -/
theorem toRoadPosition_near (g : Geometry L) (pos : Pos) (h : allLanes g ≠ []) :
    ∃ x, toRoadPosition g pos none = .ok x ∧ x.lane ∈ allLanes g ∧ Faithful g pos x ∧
      ((∃ m ∈ allLanes g, laneDistance g pos m ≤ g.linearTolerance) → x.distance ≤ g.linearTolerance) := by
  obtain ⟨l, ls, h1, h2, -, -, h4⟩ := toRoadPosition_candidates g pos h
  have : ∃ k ∈ l :: ls, pickClosest g ((l :: ls).map (g.resultOn pos)) (g.resultOn pos l) = g.resultOn pos k := by
    rcases pick_mem g ((l :: ls).map (g.resultOn pos)) (g.resultOn pos l) with e | e
    · exact ⟨l, List.mem_cons_self, e⟩
    · obtain ⟨k, hk, e⟩ := List.mem_map.mp e
      exact ⟨k, hk, e.symm⟩
  obtain ⟨k, hk, e⟩ := this
  refine ⟨_, h1, ?_, ?_, ?_⟩
  · rw [e]; exact h2 k hk
  · rw [e]; rfl
  · intro hm; rw [e]; exact h4 hm k hk

/-- C18, part that holds in general: the returned distance is minimal up to the threshold of the comparison
(1e-12) times the number of lanes. -/
theorem toRoadPosition_bound_partial (g : Geometry L) (pos : Pos) (h : allLanes g ≠ []) :
    ∃ x, toRoadPosition g pos none = .ok x ∧
      ∀ m ∈ allLanes g, x.distance ≤ laneDistance g pos m + (allLanes g).length * kEps := by
  have he := kEps_pos
  obtain ⟨l, ls, h1, h2, hlen, h3, -⟩ := toRoadPosition_candidates g pos h
  refine ⟨_, h1, ?_⟩
  have hb := (pick_bound g ((l :: ls).map (g.resultOn pos)) (g.resultOn pos l)).2
  have hcount : (((l :: ls).map (g.resultOn pos)).length : ℚ) * kEps ≤ ((allLanes g).length : ℚ) * kEps := by
    rw [List.length_map]
    exact mul_le_mul_of_nonneg_right (by exact_mod_cast hlen) he.le
  have hcand : ∀ m ∈ l :: ls, (pickClosest g ((l :: ls).map (g.resultOn pos)) (g.resultOn pos l)).distance
      ≤ laneDistance g pos m + (allLanes g).length * kEps := by
    intro m hm
    have : (g.resultOn pos m).distance = laneDistance g pos m := rfl
    linarith [hb _ (List.mem_map_of_mem (f := g.resultOn pos) hm)]
  intro m hm
  rcases h3 m hm with hm | ⟨hfar, hnear⟩
  · exact hcand m hm
  · have hl : (pickClosest g ((l :: ls).map (g.resultOn pos)) (g.resultOn pos l)).distance ≤ g.linearTolerance := by
      rcases pick_mem g ((l :: ls).map (g.resultOn pos)) (g.resultOn pos l) with e | e
      · rw [e]; exact hnear l List.mem_cons_self
      · obtain ⟨k, hk, e⟩ := List.mem_map.mp e
        rw [← e]; exact hnear k hk
    have : 0 ≤ ((allLanes g).length : ℚ) * kEps := by positivity
    linarith

/-- C18, when the distances of the lanes are equal or more than the threshold apart: the returned lane is a
closest one; among those it is one whose bounds include the position, if any does; and among those one with
the least distance to the centerline. -/
theorem toRoadPosition_best_partial (g : Geometry L) (pos : Pos) (h : allLanes g ≠ [])
    (hs : Separated g pos (allLanes g)) :
    ∃ x, toRoadPosition g pos none = .ok x ∧ ∀ m ∈ allLanes g, AtLeastAsGood g x (g.resultOn pos m) := by
  obtain ⟨l, ls, h1, h2, -, h3, -⟩ := toRoadPosition_candidates g pos h
  refine ⟨_, h1, ?_⟩
  have hgood := pick_good g ((l :: ls).map (g.resultOn pos)) (g.resultOn pos l) (by
    have : ∀ x ∈ g.resultOn pos l :: (l :: ls).map (g.resultOn pos), ∃ k ∈ allLanes g, x = g.resultOn pos k := by
      intro x hx
      rcases List.mem_cons.mp hx with rfl | hx
      · exact ⟨l, h2 l List.mem_cons_self, rfl⟩
      · obtain ⟨k, hk, rfl⟩ := List.mem_map.mp hx
        exact ⟨k, h2 k hk, rfl⟩
    intro x hx y hy
    obtain ⟨k, hk, rfl⟩ := this x hx
    obtain ⟨j, hj, rfl⟩ := this y hy
    exact hs k hk j hj)
  intro m hm
  rcases h3 m hm with hm | ⟨hfar, hnear⟩
  · exact hgood _ (List.mem_cons_of_mem _ (List.mem_map_of_mem hm))
  · left
    have hl : (pickClosest g ((l :: ls).map (g.resultOn pos)) (g.resultOn pos l)).distance ≤ g.linearTolerance := by
      rcases pick_mem g ((l :: ls).map (g.resultOn pos)) (g.resultOn pos l) with e | e
      · rw [e]; exact hnear l List.mem_cons_self
      · obtain ⟨k, hk, e⟩ := List.mem_map.mp e
        rw [← e]; exact hnear k hk
    exact lt_of_le_of_lt hl hfar

/-- Between lanes 0 and 1: both touch the point (5, 2, 0), but only lane 1's bounds include it. -/
example : allLanes exGeometry ≠ [] ∧ Separated exGeometry ![5, 2, 0] (allLanes exGeometry) ∧
    (toRoadPosition exGeometry ![5, 2, 0] none).toOption.map RoadPositionResult.lane = some 1 := by
  refine ⟨by decide, ?_, by decide +kernel⟩
  unfold Separated
  decide +kernel

/-- Three lanes at distances 0, 9e-13 and 18e-13 from every position, with decreasing |r|. -/
def driftGeometry : Geometry (Fin 3) where
  junctions := [[[0, 1, 2]]]
  toLanePosition := fun l _ => ⟨0, 1 - (l.val : ℚ) / 4, 0, fun _ => 0, 9 * (l.val : ℚ) / 10 ^ 13⟩
  laneBounds := fun _ _ => (-2, 2)
  length := fun _ => 10
  toInertialPosition := fun _ _ _ => fun _ => 0
  linearTolerance := 1 / 100

/-- Witness that the result need not be minimal up to the threshold: the comparisons drift from lane 0 to
lane 2, which is 1.8 thresholds farther away than lane 0. -/
theorem toRoadPosition_drifts :
    (toRoadPosition driftGeometry ![0, 0, 0] none).toOption.map RoadPositionResult.lane = some 2 ∧
      laneDistance driftGeometry ![0, 0, 0] 0 + kEps < laneDistance driftGeometry ![0, 0, 0] 2 := by
  refine ⟨by decide +kernel, by decide +kernel⟩

/-! ### C48: the kd-tree strategy finds a closest lane if the samples are dense -/

/-- C48: if every lane has a sample close enough and samples are on their lanes, then the kd-tree strategy
returns what some lane says, and the distance is minimal up to the threshold times the number of samples. -/
theorem kdToRoadPosition_bound (nth : KdTree.NthElement (coordOf (L := L))) (g : Geometry L) (norm : Pos → ℚ)
    (hnorm : ∀ v, 0 ≤ norm v) (lanes : List L) (step : ℚ) (hstep : 0 < step) (pos : Pos) (hl : lanes ≠ [])
    (hdense : DenseSamples g lanes step pos) (hon : SamplesOnLanes g norm lanes step pos) :
    ∃ k x, KdStrategy.make nth g lanes step = .ok k ∧ kdToRoadPosition g norm k pos none = .ok x ∧
      x.lane ∈ lanes ∧ Faithful g pos x ∧
      ∀ m ∈ lanes, x.distance ≤ laneDistance g pos m + (samplePoints g lanes step).length * kEps := by
  have he := kEps_pos
  have hne : samplePoints g lanes step ≠ [] := by
    obtain ⟨l, hl⟩ := List.exists_mem_of_ne_nil _ hl
    obtain ⟨p, hp, -⟩ := hdense l hl
    exact List.ne_nil_of_mem hp
  obtain ⟨k, hk, hks, ht, hrt⟩ := kdMake_spec nth g lanes step hne
  obtain ⟨t, p, h1, h2, h3, -⟩ := kdTree_nearest nth _ hne pos kMinDouble (by unfold kMinDouble; positivity)
  rw [ht] at h1
  cases h1
  have hhalf : 0 ≤ norm (fun i => pos i - coordOf p i) + 2 * k.step := by
    rw [hks]; linarith [hnorm (fun i => pos i - coordOf p i)]
  obtain ⟨ls, h4, h5, h6, h7⟩ := closestLanes_spec nth _ hne k hrt pos
    ((norm (fun i => pos i - coordOf p i) + 2 * k.step : ℚ) : WithTop ℚ) (WithTop.coe_le_coe.mpr hhalf)
  have hx : kdToRoadPosition g norm k pos none = .ok (pickClosest g (ls.map (g.resultOn pos)) (g.resultOn pos p.2)) := by
    unfold kdToRoadPosition closestLane
    simp only [h2, h4, bind, Except.bind]
    unfold pickClosest
    rw [List.foldl_map]
    rfl
  have hlane : ∀ q ∈ samplePoints g lanes step, q.2 ∈ lanes := fun q hq =>
    ((mem_samplePoints g lanes step hstep q).mp hq).1
  have hcand : ∃ m ∈ lanes, pickClosest g (ls.map (g.resultOn pos)) (g.resultOn pos p.2) = g.resultOn pos m := by
    rcases pick_mem g (ls.map (g.resultOn pos)) (g.resultOn pos p.2) with e | e
    · exact ⟨p.2, hlane p h3, e⟩
    · obtain ⟨m, hm, e⟩ := List.mem_map.mp e
      obtain ⟨q, hq, rfl⟩ := h6 m hm
      exact ⟨q.2, hlane q hq, e.symm⟩
  obtain ⟨m0, hm0, e0⟩ := hcand
  refine ⟨k, _, hk, hx, ?_, ?_, ?_⟩
  · rw [e0]; exact hm0
  · rw [e0]; rfl
  · obtain ⟨b1, b2⟩ := pick_bound g (ls.map (g.resultOn pos)) (g.resultOn pos p.2)
    have hcount : ((ls.map (g.resultOn pos)).length : ℚ) * kEps ≤ ((samplePoints g lanes step).length : ℚ) * kEps := by
      rw [List.length_map]
      exact mul_le_mul_of_nonneg_right (by exact_mod_cast h5) he.le
    intro m hm
    by_cases hd : laneDistance g pos m ≤ norm (fun i => pos i - coordOf p i)
    · obtain ⟨q, hq, rfl, hqi⟩ := hdense m hm
      have hin := h7 q hq (fun i => WithTop.coe_le_coe.mpr (by rw [hks]; linarith [hqi i]))
      have := b2 _ (List.mem_map_of_mem (f := g.resultOn pos) hin)
      have e : (g.resultOn pos q.2).distance = laneDistance g pos q.2 := rfl
      linarith
    · have e : (g.resultOn pos p.2).distance = laneDistance g pos p.2 := rfl
      have := hon p h3
      have e2 : norm (fun i => pos i - p.1 i) = norm (fun i => pos i - coordOf p i) := rfl
      linarith

/-- C48: both strategies answer a hint alike: with the position on the hinted lane, whatever the distance, and an exception if the hint
has no lane. -/
theorem kdToRoadPosition_hint (g : Geometry L) (norm : Pos → ℚ) (k : KdStrategy L) (pos : Pos) (hint : Option L) :
    kdToRoadPosition g norm k pos (some hint) = toRoadPosition g pos (some hint) ∧
    kdToRoadPosition g norm k pos (some hint) =
      (match hint with | some l => .ok (g.resultOn pos l) | none => .error .throws) := by
  cases hint <;> exact ⟨rfl, rfl⟩

/-- C48: the grid of samples is dense for lanes of constant width that are not stretched. -/
theorem flatLanes_dense (g : Geometry L) (lanes : List L) (step : ℚ) (hstep : 0 < step) (pos : Pos)
    (h : ∀ l ∈ lanes, FlatLane g pos l) : DenseSamples g lanes step pos := by
  intro l hl
  obtain ⟨h1, h2, lo, hi, hb, h3, h4, h5⟩ := h l hl
  -- the grid point below the closest lane position
  have key : ∀ a x : ℚ, a ≤ x → ∃ k : ℕ, a + k * step ≤ x ∧ |a + k * step - x| ≤ step := by
    intro a x hax
    have hk := Nat.floor_le (div_nonneg (sub_nonneg.mpr hax) hstep.le)
    have hk' := Nat.lt_floor_add_one ((x - a) / step)
    rw [le_div_iff₀ hstep] at hk
    rw [div_lt_iff₀ hstep] at hk'
    refine ⟨⌊(x - a) / step⌋₊, by linarith, ?_⟩
    rw [abs_le]
    constructor <;> linarith
  obtain ⟨j, hj1, hj2⟩ := key 0 _ h1
  obtain ⟨k, hk1, hk2⟩ := key lo _ h3
  rw [zero_add] at hj1 hj2
  refine ⟨(g.toInertialPosition l (j * step) (lo + k * step), l), ?_, rfl, ?_⟩
  · rw [mem_samplePoints g lanes step hstep]
    refine ⟨hl, j, k, by linarith, ?_, ?_⟩
    · rw [hb]; dsimp only; linarith
    · rw [hb]
  · intro i
    have := h5 (j * step) (lo + k * step) i
    dsimp only
    linarith

/-- The example geometry meets the hypotheses, for the step 1 and the position (5/2, 1, 0). -/
example : (∀ l ∈ [0, 1, 2], FlatLane exGeometry ![5/2, 1, 0] l) ∧
    SamplesOnLanes exGeometry (fun v => max |v 0| (max |v 1| |v 2|)) [0, 1, 2] 1 ![5/2, 1, 0] ∧
    (match KdStrategy.make (KdTree.sortNth coordOf) exGeometry [0, 1, 2] 1 with
      | .ok k => (kdToRoadPosition exGeometry (fun v => max |v 0| (max |v 1| |v 2|)) k ![5/2, 1, 0] none).toOption.map
          RoadPositionResult.lane
      | .error _ => none) = some 0 := by
  refine ⟨?_, ?_, by decide +kernel⟩
  · have h0 : exGeometry.toLanePosition 0 ![5/2, 1, 0] = ⟨5/2, 1, 0, ![5/2, 1, 0], 0⟩ := by decide +kernel
    have h1 : exGeometry.toLanePosition 1 ![5/2, 1, 0] = ⟨5/2, -2, 0, ![5/2, 2, 0], 1⟩ := by decide +kernel
    have h2 : exGeometry.toLanePosition 2 ![5/2, 1, 0] = ⟨5/2, -2, 0, ![5/2, 6, 0], 5⟩ := by decide +kernel
    have a0 : ∀ x : ℚ, 0 ≤ |x| := abs_nonneg
    have a1 : ∀ x y : ℚ, |x| ≤ |x + y| + |y| := fun x y => by
      have := abs_sub (x + y) y
      simpa using this
    intro l _
    unfold FlatLane laneDistance
    fin_cases l
    · simp only [Fin.zero_eta, Fin.mk_one, Fin.reduceFinMk, h0]
      refine ⟨by norm_num, by norm_num [exGeometry], -2, 2, fun _ => rfl, by norm_num, by norm_num, ?_⟩
      intro s r i
      fin_cases i
      · simp [exGeometry]
      · simp [exGeometry]
      · simp [exGeometry]; linarith [a0 (s - 5/2), a0 (r - 1)]
    · simp only [Fin.zero_eta, Fin.mk_one, Fin.reduceFinMk, h1]
      refine ⟨by norm_num, by norm_num [exGeometry], -2, 2, fun _ => rfl, by norm_num, by norm_num, ?_⟩
      intro s r i
      fin_cases i
      · simp [exGeometry]; linarith [a0 (s - 5/2), a0 (r + 2)]
      · have := abs_add_le (r + 2) 1
        simp [exGeometry]
        rw [show r + 4 - 1 = r + 2 + 1 by ring]
        rw [abs_one] at this
        linarith [a0 (s - 5/2)]
      · simp [exGeometry]; linarith [a0 (s - 5/2), a0 (r + 2)]
    · simp only [Fin.zero_eta, Fin.mk_one, Fin.reduceFinMk, h2]
      refine ⟨by norm_num, by norm_num [exGeometry], -2, 2, fun _ => rfl, by norm_num, by norm_num, ?_⟩
      intro s r i
      fin_cases i
      · simp [exGeometry]; linarith [a0 (s - 5/2), a0 (r + 2)]
      · have := abs_add_le (r + 2) 5
        simp [exGeometry]
        rw [show r + 4 * 2 - 1 = r + 2 + 5 by ring]
        rw [show |(5:ℚ)| = 5 by norm_num] at this
        linarith [a0 (s - 5/2)]
      · simp [exGeometry]; linarith [a0 (s - 5/2), a0 (r + 2)]
  · unfold SamplesOnLanes
    decide +kernel

end Maliput.Props
