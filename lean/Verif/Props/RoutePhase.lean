import Verif.Lemmas.RoutePosition
import Verif.Props.Router
import Mathlib.Tactic.IntervalCases

set_option autoImplicit false

/-! Properties C40 and C53: what a `routing::Phase` guarantees, and where positions are found in phases and
routes. -/
namespace Maliput.Props
open Maliput.Router (RoadNet RoadPos Phase)
open Maliput.Strategy (Pos Geometry LanePositionResult kEps)
open Maliput.Route Maliput.Route.Spec
open Maliput.Spec (Covers CoversAllOf ValidRange)

/-! ### C40: construction -/

/-- C40: when exactly the constructor of a phase succeeds, and with what members. -/
theorem phase_make_iff (net : RoadNet) (index : Nat) (tol : ℚ) (starts ends : List RoadPos) (ranges : List LaneSRange)
    (hv : ∀ r ∈ ranges, ValidRange r.sRange) (p : Phase) :
    Phase.make net index tol starts ends ranges = .ok p ↔
      p = ⟨index, tol, starts, ends, ranges⟩ ∧ 0 ≤ tol ∧ starts ≠ [] ∧ ends ≠ [] ∧ ranges ≠ [] ∧
        (∀ r ∈ ranges, InNetwork net tol r) ∧ (∀ q ∈ starts, InRanges net tol ranges q) ∧
        (∀ q ∈ ends, InRanges net tol ranges q) ∧
        ranges.IsChain (fun a b => HasOnLeft net a b ∨ HasOnLeft net b a) :=
  phaseMake_iff hv

/-- C40: every phase has start and end positions, all of them on its ranges, which are on lanes of the
network. -/
theorem phase_wellFormed (net : RoadNet) (p : Phase) (h : BuiltPhase net p) :
    0 ≤ p.tolerance ∧ p.startPositions ≠ [] ∧ p.endPositions ≠ [] ∧ p.ranges ≠ [] ∧
      (∀ r ∈ p.ranges, ValidRange r.sRange ∧ InNetwork net p.tolerance r) ∧
      (∀ q ∈ p.startPositions, InRanges net p.tolerance p.ranges q) ∧
      (∀ q ∈ p.endPositions, InRanges net p.tolerance p.ranges q) := by
  have hv := fun r hr => (builtPhase_ranges (r := r) h hr).1
  obtain ⟨i, tol, s, e, rs, h⟩ := h
  have hp : p = ⟨i, tol, s, e, rs⟩ := (Router.phaseMake_ok h).1
  subst hp
  obtain ⟨-, h1, h2, h3, h4, h5, h6, h7, -⟩ := (phaseMake_iff hv).1 h
  exact ⟨h1, h2, h3, h4, fun r hr => ⟨hv r hr, h5 r hr⟩, h6, h7⟩

/-- C40 claims that the ranges are ordered from right to left.  Proved: consecutive ranges are on
neighbouring lanes, and if no two ranges are on the same lane, then the ranges are ordered from right to left
or from left to right.  Missing: the order from right to left, which is false (`phase_unordered`). -/
theorem phase_ordered_partial (net : RoadNet) (hids : IdsAgree net) (p : Phase) (h : BuiltPhase net p) :
    p.ranges.IsChain (fun a b => HasOnLeft net a b ∨ HasOnLeft net b a) ∧
      ((p.ranges.map (·.laneId)).Nodup → RightToLeft net p.ranges ∨ LeftToRight net p.ranges) := by
  have hv := fun r hr => (builtPhase_ranges (r := r) h hr).1
  obtain ⟨i, tol, s, e, rs, h⟩ := h
  have hp : p = ⟨i, tol, s, e, rs⟩ := (Router.phaseMake_ok h).1
  subst hp
  obtain ⟨-, -, -, -, -, -, -, -, hc⟩ := (phaseMake_iff hv).1 h
  refine ⟨hc, ?_⟩
  dsimp only at hc ⊢
  clear hv h
  unfold RightToLeft LeftToRight
  induction rs with
  | nil => intro _; exact .inl (by simp)
  | cons a rest ih =>
    cases rest with
    | nil => intro _; exact .inl (by simp)
    | cons b rest =>
      intro hn
      rw [List.isChain_cons_cons] at hc
      obtain ⟨hab, hc⟩ := hc
      simp only [List.map_cons, List.nodup_cons, List.mem_cons] at hn ih
      have := ih hc hn.2
      cases rest with
      | nil =>
        rcases hab with hab | hab
        · exact .inl (by simpa using hab)
        · exact .inr (by simpa using hab)
      | cons c rest =>
        have hac : a.laneId ≠ c.laneId := fun h => hn.1 (.inr (by simp [h]))
        rcases this with hr | hr <;> have hbc := hr <;> rw [List.isChain_cons_cons] at hbc <;>
          obtain ⟨⟨l1, l2, h1, h2, h3, h4⟩, -⟩ := hbc <;> rcases hab with hab | hab
        · left
          rw [List.isChain_cons_cons]
          exact ⟨hab, hr⟩
        · obtain ⟨l3, l4, h5, h6, h7, h8⟩ := hab
          rw [h1] at h5
          cases h5
          rw [h3] at h7
          cases h7
          exact absurd ((hids _ _ h6).symm.trans (hids _ _ h2)) hac
        · obtain ⟨l3, l4, h5, h6, h7, h8⟩ := hab
          rw [h2] at h6
          cases h6
          rw [h4] at h8
          cases h8
          exact absurd ((hids _ _ h5).symm.trans (hids _ _ h1)) hac
        · right
          rw [List.isChain_cons_cons]
          exact ⟨hab, hr⟩

/-- Three lanes of one segment, numbered from right to left. -/
def tripleNet : RoadNet := exampleNet [0] (fun s => if s = 0 then [0, 1, 2] else [])
  (fun l => if l ≤ 2 then 0 else 1)
  (fun le => match le.which with | .start => 2 * le.lane | .finish => 2 * le.lane + 1)
  (fun b => if b < 6 then [⟨b / 2, if b % 2 = 0 then .start else .finish⟩] else []) (fun _ => []) (fun le => [le])

theorem exampleNet_ids (a b c d e f g) : IdsAgree (exampleNet a b c d e f g) := by
  intro id l h
  unfold exampleNet at h ⊢
  dsimp only at h ⊢
  split_ifs at h with h0 h1 h2 h3 <;> cases h <;> simp [*]

theorem tripleNet_sides : SidesAgree tripleNet := by
  intro a b
  by_cases ha : a ≤ 2
  · by_cases hb : b ≤ 2
    · interval_cases a <;> interval_cases b <;> decide
    · simp only [tripleNet, exampleNet]
      constructor <;> intro h <;> split_ifs at h with h1 h2 <;> first | contradiction | simp at h1
      all_goals simp at *
      all_goals omega
  · simp only [tripleNet, exampleNet]
    constructor <;> intro h <;> split_ifs at h with h1 h2 <;> first | contradiction | skip
    all_goals simp at *
    all_goals omega

theorem builtPhase_of {net : RoadNet} {p : Phase}
    (h : Phase.make net p.index p.tolerance p.startPositions p.endPositions p.ranges = .ok p) : BuiltPhase net p :=
  ⟨_, _, _, _, _, h⟩

/-- Ranges from right to left, from left to right, and there and back. -/
def rightToLeftPhase : Phase := ⟨0, 1 / 100, [⟨0, 0, 0, 0⟩], [⟨2, 10, 0, 0⟩], [⟨"0", 0, 10⟩, ⟨"1", 0, 10⟩, ⟨"2", 0, 10⟩]⟩
def leftToRightPhase : Phase := ⟨0, 1 / 100, [⟨0, 0, 0, 0⟩], [⟨2, 10, 0, 0⟩], [⟨"2", 0, 10⟩, ⟨"1", 0, 10⟩, ⟨"0", 0, 10⟩]⟩
def zigzagPhase : Phase := ⟨0, 1 / 100, [⟨2, 0, 0, 0⟩], [⟨0, 10, 0, 0⟩],
  [⟨"1", 0, 10⟩, ⟨"2", 0, 10⟩, ⟨"1", 4, 6⟩, ⟨"0", 0, 10⟩]⟩

theorem rightToLeftPhase_built : BuiltPhase tripleNet rightToLeftPhase := builtPhase_of (by decide +kernel)
theorem leftToRightPhase_built : BuiltPhase tripleNet leftToRightPhase := builtPhase_of (by decide +kernel)
theorem zigzagPhase_built : BuiltPhase tripleNet zigzagPhase := builtPhase_of (by decide +kernel)

/-- C40: the hypotheses of `phase_ordered_partial` are met, in a network of three lanes. -/
example : IdsAgree tripleNet ∧ BuiltPhase tripleNet rightToLeftPhase ∧ (rightToLeftPhase.ranges.map (·.laneId)).Nodup ∧
    RightToLeft tripleNet rightToLeftPhase.ranges := by
  refine ⟨exampleNet_ids _ _ _ _ _ _ _, rightToLeftPhase_built, by decide, ?_⟩
  unfold RightToLeft HasOnLeft LeftOf
  simp [rightToLeftPhase, tripleNet, exampleNet]

/-- Witness against the order of C40: in a regular network the constructor accepts ranges from left to right,
and ranges that go to the left and then back to the right. -/
theorem phase_unordered :
    IdsAgree tripleNet ∧ SidesAgree tripleNet ∧
      (BuiltPhase tripleNet leftToRightPhase ∧ ¬RightToLeft tripleNet leftToRightPhase.ranges) ∧
      (BuiltPhase tripleNet zigzagPhase ∧ ¬RightToLeft tripleNet zigzagPhase.ranges ∧
        ¬LeftToRight tripleNet zigzagPhase.ranges) := by
  refine ⟨exampleNet_ids _ _ _ _ _ _ _, tripleNet_sides, ⟨leftToRightPhase_built, ?_⟩, zigzagPhase_built, ?_, ?_⟩ <;>
    simp [RightToLeft, LeftToRight, HasOnLeft, LeftOf, leftToRightPhase, zigzagPhase, tripleNet, exampleNet]

/-! ### C40: positions in a phase -/

/-- C40: `FindPhasePosition` returns the index of a range of the phase and a position on it, within the
tolerance, with the distance that counts for this range; no range of the phase has a smaller distance, up to
one comparison threshold per range. -/
theorem findPhasePosition_closest (net : RoadNet) (hids : IdsAgree net) (geo : Geo) (hin : LanePositionsInRange net geo)
    (p : Phase) (hp : BuiltPhase net p) (pos : Pos) :
    ∃ x r, findPhasePosition net geo p pos = .ok x ∧ p.ranges[x.index]? = some r ∧ OnRange p.tolerance r x.s ∧
      RangeDistance net geo p.tolerance pos r x.distance ∧
      ∀ r' ∈ p.ranges, ∀ d, RangeDistance net geo p.tolerance pos r' d → x.distance ≤ d + p.ranges.length * kEps := by
  obtain ⟨x, r, l, h1, h2, -, h3, h4, h5⟩ := findPhasePosition_spec hids hin hp pos
  exact ⟨x, r, h1, h2, h3, h4, h5⟩

/-- C40, for a road position that is not on the ranges: the same as for its point. -/
theorem findPhasePositionOf_outside (net : RoadNet) (geo : Geo) (p : Phase) (hp : BuiltPhase net p) (q : RoadPos)
    (hq : 0 ≤ q.s) (h : ¬InRanges net p.tolerance p.ranges q) :
    findPhasePositionOf net geo p q = findPhasePosition net geo p (geo.toInertial q) := by
  obtain ⟨ht, -, -, hne, hv, -, -⟩ := phase_wellFormed net p hp
  obtain ⟨b, hb, hb'⟩ := positionInRanges_spec (net := net) (q := q) ht hne (fun r hr => (hv r hr).1) hq
  have : b = false := by
    cases b
    · rfl
    · exact absurd ⟨hq, hb'.1 rfl⟩ h
  subst this
  unfold findPhasePositionOf
  rw [hb]
  rfl

/-- C40, for a road position on the ranges.  Proved where the lane has one range in the phase: the range of
the position and its `s` are returned.  Missing: lanes with more ranges, for which it is false
(`findPhasePositionOf_wrong`). -/
theorem findPhasePositionOf_partial (net : RoadNet) (geo : Geo) (hround : RoundTrip geo) (p : Phase)
    (hp : BuiltPhase net p) (q : RoadPos) (hq : InRanges net p.tolerance p.ranges q)
    (hone : (p.ranges.map (·.laneId)).Nodup) :
    ∃ x r, findPhasePositionOf net geo p q = .ok x ∧ p.ranges[x.index]? = some r ∧ r.laneId = net.laneId q.lane ∧
      x.s = q.s ∧ OnRange p.tolerance r x.s := by
  obtain ⟨ht, -, -, hne, hv, -, -⟩ := phase_wellFormed net p hp
  have hin := (positionInRanges_iff ht hne (fun r hr => (hv r hr).1)).2 hq
  obtain ⟨-, r, hr, hid, hon⟩ := hq
  have hlt : p.ranges.findIdx (fun r => decide (r.laneId = net.laneId q.lane)) < p.ranges.length :=
    List.findIdx_lt_length.2 ⟨r, hr, by simpa using hid⟩
  have hat := List.findIdx_getElem (w := hlt)
  simp only [decide_eq_true_eq] at hat
  have same : p.ranges[p.ranges.findIdx (fun r => decide (r.laneId = net.laneId q.lane))] = r :=
    List.inj_on_of_nodup_map hone (List.getElem_mem _) hr (hat.trans hid.symm)
  have hs := hround q.lane q.s
  generalize hi : p.ranges.findIdx (fun r => decide (r.laneId = net.laneId q.lane)) = i at *
  generalize hx : geo.geometry.toLanePosition q.lane (geo.toInertial ⟨q.lane, q.s, 0, 0⟩) = x at *
  refine ⟨⟨i, x.s, x.r, x.h, x.nearest, x.distance⟩, r, ?_, ?_, hid, hs, ?_⟩
  · unfold findPhasePositionOf
    rw [hin]
    simp only [bind, Except.bind, hi, hx]
    rfl
  · dsimp only
    rw [List.getElem?_eq_getElem hlt, same]
  · dsimp only
    rw [hs]
    exact hon

/-- A flat world: lane `l` begins at `x0 l` and lies at `y l`, lanes have length 10.  Positions are compared
by their largest coordinate. -/
def flatGeo (x0 y : Nat → ℚ) : Geo where
  geometry :=
    { junctions := []
      toLanePosition := fun l p =>
        let s := max 0 (min (p 0 - x0 l) 10)
        let n : Pos := ![s + x0 l, y l, 0]
        ⟨s, 0, 0, n, max |p 0 - n 0| (max |p 1 - n 1| |p 2|)⟩
      laneBounds := fun _ _ => (-2, 2)
      length := fun _ => 10
      toInertialPosition := fun l s r => ![s + x0 l, y l + r, 0]
      linearTolerance := 1 / 100 }
  toInertial q := ![q.s + x0 q.lane, y q.lane + q.r, q.h]
  distance p q := max |p 0 - q 0| (max |p 1 - q 1| |p 2 - q 2|)
  sHat _ := ![1, 0, 0]
  hHat _ := ![0, 0, 1]

theorem flatGeo_inRange (net : RoadNet) (hl : ∀ l, net.length l = 10) (x0 y : Nat → ℚ) :
    LanePositionsInRange net (flatGeo x0 y) := by
  intro l pos
  rw [hl]
  exact ⟨le_max_left _ _, max_le (by norm_num) (min_le_right _ _)⟩

/-- The three lanes beside each other. -/
def tripleGeo : Geo := flatGeo (fun _ => 0) (fun l => 4 * l)

example : (findPhasePosition tripleNet tripleGeo rightToLeftPhase ![5, 5, 0]).toOption.map (fun x => (x.index, x.s, x.distance))
    = some (1, 5, 1) := by decide +kernel

example : LanePositionsInRange tripleNet tripleGeo := flatGeo_inRange _ (fun _ => rfl) _ _

/-- A road position on the phase, for `findPhasePositionOf_partial`. -/
example : InRanges tripleNet rightToLeftPhase.tolerance rightToLeftPhase.ranges ⟨1, 5, 0, 0⟩ ∧
    (findPhasePositionOf tripleNet tripleGeo rightToLeftPhase ⟨1, 5, 0, 0⟩).toOption.map (fun x => (x.index, x.s)) =
      some (1, 5) := by
  refine ⟨⟨by norm_num, ⟨"1", 0, 10⟩, by decide, by decide, 5, ?_, by norm_num [rightToLeftPhase]⟩, by decide +kernel⟩
  left
  norm_num

/-- A phase with two disjoint ranges on one lane. -/
def twicePhase : Phase := ⟨0, 1 / 100, [⟨1, 0, 0, 0⟩], [⟨1, 10, 0, 0⟩], [⟨"1", 0, 2⟩, ⟨"2", 0, 10⟩, ⟨"1", 8, 10⟩]⟩

/-- Witness against C40 for road positions: the position at `s = 9` of lane 1 is on the third range, and the
first one is returned, with an `s` that is not on it. -/
theorem findPhasePositionOf_wrong :
    BuiltPhase tripleNet twicePhase ∧ InRanges tripleNet twicePhase.tolerance twicePhase.ranges ⟨1, 9, 0, 0⟩ ∧
      ∃ x r, findPhasePositionOf tripleNet tripleGeo twicePhase ⟨1, 9, 0, 0⟩ = .ok x ∧
        twicePhase.ranges[x.index]? = some r ∧ ¬OnRange twicePhase.tolerance r x.s := by
  refine ⟨builtPhase_of (by decide +kernel),
    ⟨by norm_num, ⟨"1", 8, 10⟩, by decide, by decide, 9, .inl (by norm_num), by norm_num [twicePhase]⟩,
    ⟨0, 9, 0, 0, ![9, 4, 0], 0⟩, ⟨"1", 0, 2⟩, by decide +kernel, by decide +kernel, ?_⟩
  rintro ⟨x, h | h, h'⟩ <;> rw [abs_le] at h' <;> norm_num [twicePhase] at h h' <;> linarith [h.1, h.2, h'.1, h'.2]

/-! ### C53: positions in a route -/

/-- C53: `FindRoutePosition` returns a phase of the route, the index of one of its ranges and a position on
this range, within the tolerance of the phase; no range of any phase has a smaller distance, up to the
comparison thresholds. -/
theorem findRoutePosition_closest (net : RoadNet) (hids : IdsAgree net) (geo : Geo)
    (hin : LanePositionsInRange net geo) (route : List Phase) (hb : Built net route) (pos : Pos) :
    ∃ x p r, findRoutePosition net geo route pos = .ok x ∧ route[x.phase]? = some p ∧
      findPhasePosition net geo p pos = .ok x.inPhase ∧ p.ranges[x.inPhase.index]? = some r ∧
      OnRange p.tolerance r x.inPhase.s ∧ RangeDistance net geo p.tolerance pos r x.inPhase.distance ∧
      ∀ p' ∈ route, ∀ r' ∈ p'.ranges, ∀ d, RangeDistance net geo p'.tolerance pos r' d →
        x.inPhase.distance ≤ d + (p'.ranges.length + route.length) * kEps :=
  findRoutePosition_spec hids hin hb pos

/-- C53, for road positions: the first phase that has the position on its ranges is used if there is one, and
otherwise the point of the position is searched for. -/
theorem findRoutePositionOf_spec (net : RoadNet) (geo : Geo) (route : List Phase) (hb : Built net route) (q : RoadPos)
    (hq : 0 ≤ q.s) :
    (∀ (i : Nat) (p : Phase), route[i]? = some p → InRanges net p.tolerance p.ranges q →
      (∀ (j : Nat) (p' : Phase), j < i → route[j]? = some p' → ¬InRanges net p'.tolerance p'.ranges q) →
      findRoutePositionOf net geo route q = (findPhasePositionOf net geo p q).map (fun x => ⟨i, x⟩)) ∧
    ((∀ p ∈ route, ¬InRanges net p.tolerance p.ranges q) →
      findRoutePositionOf net geo route q = findRoutePosition net geo route (geo.toInertial q)) := by
  have hl : ∀ x ∈ route.zipIdx, BuiltPhase net x.1 := fun x hx => hb.2 _ (List.fst_mem_of_mem_zipIdx hx)
  have at_ : ∀ x : Phase × Nat, x ∈ route.zipIdx ↔ route[x.2]? = some x.1 := fun x => List.mem_zipIdx_iff_getElem?
  rcases findPhaseOf_spec hq _ hl with ⟨h1, h2⟩ | ⟨l1, ⟨p, i⟩, l2, h1, h2, h3, h4⟩
  · constructor
    · intro i p hp hin _
      exact absurd hin (h2 (p, i) ((at_ _).2 hp))
    · intro _
      unfold findRoutePositionOf
      rw [h1]
      rfl
  · have hpi : route[i]? = some p := (at_ (p, i)).1 (by rw [h1]; simp)
    constructor
    · intro i' p' hp' hin hfirst
      have hii : i = i' := by
        rcases lt_trichotomy i i' with h | h | h
        · exact absurd h3 (hfirst i p h hpi)
        · exact h
        · exfalso
          have hm : (p', i') ∈ route.zipIdx := (at_ _).2 hp'
          rw [h1] at hm
          have hpw := zipIdx_increasing route 0
          rw [h1, List.pairwise_append, List.pairwise_cons] at hpw
          rcases List.mem_append.1 hm with hm | hm
          · exact h4 _ hm hin
          · rcases List.mem_cons.1 hm with hm | hm
            · cases hm; omega
            · have := hpw.2.1.1 _ hm
              dsimp only at this
              omega
      subst hii
      rw [hpi] at hp'
      cases hp'
      unfold findRoutePositionOf
      rw [h2]
      simp only [bind, Except.bind, Except.map, pure, Except.pure]
    · intro hno
      exact absurd h3 (hno p (List.mem_of_getElem? hpi))

theorem inRowRoute_built : Built inRow inRowRoute := by
  refine ⟨by simp [inRowRoute], ?_⟩
  intro p hp
  simp only [inRowRoute, List.mem_cons, List.not_mem_nil, or_false] at hp
  rcases hp with rfl | rfl <;> exact builtPhase_of (by decide +kernel)

/-- The two segments of `inRow` behind each other. -/
def inRowGeo : Geo := flatGeo (fun l => if l ≤ 1 then 0 else 10) (fun l => 4 * (l % 2 : Nat))

/-- C53: the hypotheses are met by the route of two phases; a point near the second one is found there. -/
example : IdsAgree inRow ∧ LanePositionsInRange inRow inRowGeo ∧ Built inRow inRowRoute ∧
    (findRoutePosition inRow inRowGeo inRowRoute ![13, 5, 0]).toOption.map
      (fun x => (x.phase, x.inPhase.index, x.inPhase.s, x.inPhase.distance)) = some (1, 1, 3, 1) ∧
    (findRoutePositionOf inRow inRowGeo inRowRoute ⟨3, 4, 0, 0⟩).toOption.map
      (fun x => (x.phase, x.inPhase.index, x.inPhase.s)) = some (1, 1, 4) :=
  ⟨exampleNet_ids _ _ _ _ _ _ _, flatGeo_inRange _ (fun _ => rfl) _ _, inRowRoute_built, by decide +kernel,
    by decide +kernel⟩

end Maliput.Props
