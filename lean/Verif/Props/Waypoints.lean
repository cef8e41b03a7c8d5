import Mathlib.Data.List.Chain
import Verif.Lemmas.Waypoints

set_option autoImplicit false

/-! Property C32: sampling of waypoints. -/
namespace Maliput.Props

open Maliput.Waypoints Maliput.Waypoints.Spec
open Maliput.RouteGraph (Stop)

theorem at_zero (r : LaneSRange) (rs : List LaneSRange) : At (r :: rs) 0 r.laneId r.sRange.s0 := by
  have := At.here r rs 0 le_rfl (abs_nonneg _)
  simpa using this

theorem at_total (r : LaneSRange) (rs : List LaneSRange) :
    At (r :: rs) (total (r :: rs)) ((r :: rs).getLast (List.cons_ne_nil _ _)).laneId
      ((r :: rs).getLast (List.cons_ne_nil _ _)).sRange.s1 := by
  induction rs generalizing r with
  | nil =>
    have := At.here r [] |r.sRange.s1 - r.sRange.s0| (abs_nonneg _) le_rfl
    have he : (if r.sRange.s0 ≤ r.sRange.s1 then r.sRange.s0 + |r.sRange.s1 - r.sRange.s0| else
        r.sRange.s0 - |r.sRange.s1 - r.sRange.s0|) = r.sRange.s1 := by
      split
      · rw [abs_of_nonneg (by linarith)]; ring
      · rw [abs_of_neg (by linarith)]; ring
    rw [he] at this
    simpa [total] using this
  | cons r' rs ih =>
    have := At.later r (ih r')
    simpa [total] using this

/-- C32, for routes whose ranges are travelled in the direction of increasing `s`.  With `d` the larger of the linear
tolerance and the smaller of the sampling rate and the length of the route, the waypoints are the positions on the route
after the path lengths 0, d, 2d, ... as far as they do not exceed the length of the route, and then the end of the route
if the last sample is farther than the linear tolerance from it.  What is missing: ranges in the other direction, see
`waypoints_reversed`. -/
theorem waypoints_partial {P : Type} (g : RoadGeometry P) (route : LaneSRoute) (rate : ℚ) (htol : 0 < g.linearTolerance)
    (hrate : 0 < rate) (hne : route.ranges ≠ []) (hl : ∀ r ∈ route.ranges, g.hasLane r.laneId = true)
    (hf : Forward route.ranges) (d : ℚ) (hd : d = max g.linearTolerance (min rate (total route.ranges))) :
    ∃ (N n : Nat) (xs : List ℚ) (ps : List P),
      (∀ bound, N ≤ bound → sampleAheadWaypoints g bound route rate = .ok ps) ∧
      n * d ≤ total route.ranges ∧ total route.ranges < (n + 1) * d ∧
      xs = ((List.range (n + 1)).map fun k : Nat => k * d) ++
        (if g.linearTolerance < total route.ranges - n * d then [total route.ranges] else []) ∧
      List.Forall₂ (fun x p => ∃ lane s, At route.ranges x lane s ∧ p = g.toInertial lane (s, 0, 0)) xs ps := by
  have hd0 : 0 < d := by rw [hd]; exact lt_of_lt_of_le htol (le_max_left _ _)
  obtain ⟨rs⟩ := route
  rcases rs with _ | ⟨r, rs⟩
  · exact absurd rfl hne
  have hlen : max g.linearTolerance (min rate (LaneSRoute.length ⟨r :: rs⟩)) = d := by rw [length_eq, hd]
  simp only at hl hf hd ⊢
  obtain ⟨N, n, ps, h1, h2, h3, h4⟩ := sampleRanges_forward g hd0 (r :: rs) 0 hf hl (by linarith) le_rfl
  rw [zero_add] at h2 h3
  have habs : |(n : ℚ) * d - total (r :: rs)| = total (r :: rs) - n * d := by
    rw [abs_sub_comm]; exact abs_of_nonneg (by linarith)
  have hlast : g.hasLane ((r :: rs).getLast (List.cons_ne_nil _ _)).laneId = true := hl _ (List.getLast_mem _)
  refine ⟨N, n, _, g.toInertial r.laneId (r.sRange.s0, 0, 0) :: (ps ++
    if g.linearTolerance < total (r :: rs) - n * d then
      [g.toInertial ((r :: rs).getLast (List.cons_ne_nil _ _)).laneId
        (((r :: rs).getLast (List.cons_ne_nil _ _)).sRange.s1, 0, 0)] else []), ?_, by linarith, by linarith, rfl, ?_⟩
  · intro bound hb
    have h1 := h1 bound hb
    rw [zero_add] at h1
    unfold sampleAheadWaypoints
    simp only [hlen, h1, hl r List.mem_cons_self, throwUnless, RouteGraph.lift, bind,
      Except.bind, hrate, gt_iff_lt, decide_true, if_true, habs, hlast]
    by_cases hc : g.linearTolerance < total (r :: rs) - n * d
    · simp [if_pos hc, pure, Except.pure]
    · simp [if_neg hc, pure, Except.pure]
  · rw [List.range_succ_eq_map, List.map_cons, List.cons_append]
    refine List.Forall₂.cons ⟨r.laneId, r.sRange.s0, by simpa using at_zero r rs, rfl⟩ (List.rel_append ?_ ?_)
    · rw [List.map_map]
      have he : ((fun k : Nat => (k : ℚ) * d) ∘ Nat.succ) = fun i : Nat => 0 + ((i : ℚ) + 1) * d := by
        funext i; simp [Function.comp]
      rw [he]
      exact h4
    · split
      · exact List.Forall₂.cons ⟨_, _, at_total r rs, rfl⟩ .nil
      · exact .nil

/-- C32: the path lengths of consecutive waypoints grow, by at most `d`, and the last one is within the tolerance of the
length of the route. -/
theorem waypoints_spacing {tol d len : ℚ} (htol : 0 < tol) (hd : tol ≤ d) (n : Nat) (h1 : n * d ≤ len)
    (h2 : len < (n + 1) * d) (xs : List ℚ)
    (hx : xs = ((List.range (n + 1)).map fun k : Nat => k * d) ++ (if tol < len - n * d then [len] else [])) :
    xs.IsChain (fun x y => x < y ∧ y ≤ x + d) ∧ xs.head? = some 0 ∧ ∃ x, xs.getLast? = some x ∧ x ≤ len ∧ len ≤ x + tol := by
  have hlast : ∀ n : Nat, ((List.range (n + 1)).map fun k : Nat => (k : ℚ) * d).getLast? = some (n * d) := by
    intro n; rw [List.range_succ]; simp
  have hchain : ∀ n : Nat, ((List.range n).map fun k : Nat => (k : ℚ) * d).IsChain (fun x y => x < y ∧ y ≤ x + d) := by
    intro n
    rw [List.isChain_map, List.isChain_iff_getElem]
    intro i hi
    simp only [List.getElem_range]
    push_cast
    constructor <;> linarith
  subst hx
  refine ⟨?_, ?_, ?_⟩
  · split
    · rw [List.isChain_append]
      refine ⟨hchain _, by simp, ?_⟩
      intro x hx y hy
      rw [hlast] at hx
      simp only [Option.mem_def, Option.some.injEq, List.head?_cons] at hx hy
      subst hx hy
      constructor <;> linarith
    · simpa using hchain (n + 1)
  · rw [List.range_succ_eq_map]; simp
  · split
    · exact ⟨len, by simp, le_rfl, by linarith⟩
    · refine ⟨n * d, by rw [List.append_nil]; exact hlast n, h1, by linarith⟩

/-- C32: the function always returns; it throws if the rate is not positive or a lane is unknown. -/
theorem waypoints_outcome {P : Type} (g : RoadGeometry P) (route : LaneSRoute) (rate : ℚ) (htol : 0 < g.linearTolerance)
    (hne : route.ranges ≠ []) :
    ∃ (N : Nat) (o : Except Err (List P)), (∀ bound, N ≤ bound → sampleAheadWaypoints g bound route rate = RouteGraph.lift o) ∧
      ((∃ ps, o = .ok ps) ↔ 0 < rate ∧ ∀ r ∈ route.ranges, g.hasLane r.laneId = true) ∧ ∀ e, o = .error e → e = .throws := by
  by_cases hrate : 0 < rate
  · rcases hrs : route.ranges with _ | ⟨r, rs⟩
    · exact absurd hrs hne
    have hd0 : 0 < max g.linearTolerance (min rate route.length) := lt_of_lt_of_le htol (le_max_left _ _)
    obtain ⟨N, o, h1, h2, h3⟩ := sampleRanges_terminates g hd0 (r :: rs) 0
    rcases o with e | q
    · refine ⟨N, .error .throws, ?_, ?_, by simp⟩
      · intro bound hb
        have := h3 e rfl
        subst this
        unfold sampleAheadWaypoints
        simp only [hrs, hrate, decide_true, h1 bound hb, RouteGraph.lift, throwUnless, bind, Except.bind, if_true]
        rcases g.hasLane r.laneId <;> rfl
      · rw [← h2]; simp [hrate]
    · have hl : ∀ x ∈ r :: rs, g.hasLane x.laneId = true := h2.1 ⟨q, rfl⟩
      refine ⟨N, .ok ((g.toInertial r.laneId (r.sRange.s0, 0, 0) :: q.1) ++ if |q.2| > g.linearTolerance then
          [g.toInertial ((r :: rs).getLast (List.cons_ne_nil _ _)).laneId
            (((r :: rs).getLast (List.cons_ne_nil _ _)).sRange.s1, 0, 0)] else []), ?_, ?_, by simp⟩
      rotate_left
      · simp only [hrate, true_and, Except.ok.injEq, exists_eq', true_iff]
        exact hl
      · intro bound hb
        unfold sampleAheadWaypoints
        simp only [hrs, hrate, gt_iff_lt, decide_true, h1 bound hb, RouteGraph.lift, throwUnless, bind, Except.bind, if_true,
          hl r List.mem_cons_self, hl _ (List.getLast_mem (List.cons_ne_nil r rs))]
        split <;> simp [pure, Except.pure]
  · refine ⟨0, .error .throws, ?_, by simp [hrate], by simp⟩
    intro bound _
    unfold sampleAheadWaypoints
    simp [hrate, throwUnless, RouteGraph.lift, bind, Except.bind]

/-- A road with lanes `a` and `b` whose positions are their lane and `s`. -/
def sampledRoad : RoadGeometry (String × ℚ) where
  linearTolerance := 1 / 100
  hasLane l := l == "a" || l == "b"
  toInertial l p := (l, p.1)

example : 0 < sampledRoad.linearTolerance ∧
    Forward [⟨"a", ⟨1, 6⟩⟩, ⟨"b", ⟨0, 4⟩⟩] ∧
    sampleAheadWaypoints sampledRoad 9 ⟨[⟨"a", ⟨1, 6⟩⟩, ⟨"b", ⟨0, 4⟩⟩]⟩ 2 =
      .ok [("a", 1), ("a", 3), ("a", 5), ("b", 1), ("b", 3), ("b", 4)] := by
  refine ⟨by decide +kernel, ?_, by decide +kernel⟩
  intro r hr
  simp only [List.mem_cons, List.not_mem_nil, or_false] at hr
  rcases hr with rfl | rfl <;> norm_num

/-- The negation of C32 in general: of a route that is travelled against the direction of `s`, nothing but the ends is
returned, however far apart they are. -/
theorem waypoints_reversed : ∀ bound, 1 ≤ bound →
    sampleAheadWaypoints sampledRoad bound ⟨[⟨"a", ⟨6, 0⟩⟩]⟩ 1 = .ok [("a", 6), ("a", 0)] := by
  intro bound hb
  obtain ⟨n, rfl⟩ : ∃ n, bound = n + 1 := ⟨bound - 1, by omega⟩
  norm_num [sampleAheadWaypoints, sampleRanges, sampleRange, sampledRoad, LaneSRoute.length, LaneSRange.length, SRange.size,
    throwUnless, RouteGraph.lift, bind, Except.bind, pure, Except.pure, abs_of_pos, abs_of_neg]

/-- The documentation says that two samples are taken of a route that is shorter than the sampling rate: of a route that
is shorter than the linear tolerance only one is taken. -/
theorem waypoints_short : sampleAheadWaypoints sampledRoad 2 ⟨[⟨"a", ⟨0, 1 / 200⟩⟩]⟩ 1 = .ok [("a", 0)] := by
  decide +kernel

/-- An empty route, which the API allows to construct, has undefined behaviour. -/
theorem waypoints_empty {P : Type} (g : RoadGeometry P) (bound : Nat) (rate : ℚ) (h : 0 < rate) :
    sampleAheadWaypoints g bound ⟨[]⟩ rate = .error (.err .ub) := by
  simp [sampleAheadWaypoints, h, throwUnless, RouteGraph.lift, bind, Except.bind]

end Maliput.Props
