import Verif.Lemmas.RouteWay
import Verif.Props.RoutePhase

set_option autoImplicit false

/-! Properties C41 and C42: the relations between the ranges of a route, and the lane-s routes through it. -/
namespace Maliput.Props
open Maliput.Router (RoadNet RoadPos Phase lift_ok)
open Maliput.Strategy (Pos)
open Maliput.Route Maliput.Route.Spec
open Maliput.Spec (Covers CoversAllOf ValidRange)
open Maliput.RouteGraph (Stop lift)

/-! ### C41: relations -/

/-- C41: for two ranges of the route the relation is the one of their (first) places in the route, and no
other one. -/
theorem relation_iff (net : RoadNet) (geo : Geo) (ht : 0 ≤ geo.tol) (route : List Phase) (hb : Built net route)
    (a b : LaneSRange) (ha : ValidRange a.sRange) (hb' : ValidRange b.sRange) (i j k l : Nat) (x y : LaneSRange)
    (hx : FirstPlace geo.tol route a i j x) (hy : FirstPlace geo.tol route b k l y) (rel : Relation) :
    relation net geo route a b = .ok rel ↔ RelatedBy net geo i j x k l y rel := by
  rcases relation_spec ht (built_valid hb) ha hb' with ⟨-, h | h⟩ | ⟨i', j', x', k', l', y', rel', h1, h2, h3, -, h5⟩
  · exact absurd ⟨_, _, _, hx.there, hx.holds⟩ h
  · exact absurd ⟨_, _, _, hy.there, hy.holds⟩ h
  · obtain ⟨rfl, rfl, rfl⟩ := firstPlace_unique hx h1
    obtain ⟨rfl, rfl, rfl⟩ := firstPlace_unique hy h2
    rw [h5, h3]
    constructor
    · rintro h; cases h; rfl
    · rintro rfl; rfl

/-- C41: the relation is always found, and it is `kUnknown` exactly if one of the ranges is not part of the
route. -/
theorem relation_unknown_iff (net : RoadNet) (geo : Geo) (ht : 0 ≤ geo.tol) (route : List Phase)
    (hb : Built net route) (a b : LaneSRange) (ha : ValidRange a.sRange) (hb' : ValidRange b.sRange) :
    (∃ rel, relation net geo route a b = .ok rel) ∧
      (relation net geo route a b = .ok .unknown ↔ ¬PartOf geo.tol route a ∨ ¬PartOf geo.tol route b) := by
  rcases relation_spec ht (built_valid hb) ha hb' with ⟨h1, h2⟩ | ⟨i, j, x, k, l, y, rel, h1, h2, h3, h4, -⟩
  · exact ⟨⟨_, h1⟩, fun _ => h2, fun _ => h1⟩
  · refine ⟨⟨_, h3⟩, ?_, ?_⟩
    · intro h
      rw [h3] at h
      cases h
      exact absurd rfl h4
    · rintro (h | h)
      · exact absurd ⟨_, _, _, h1.there, h1.holds⟩ h
      · exact absurd ⟨_, _, _, h2.there, h2.holds⟩ h

/-- The ranges of a route are part of it, and have a first place. -/
theorem partOf_firstPlace {net : RoadNet} {tol : ℚ} (ht : 0 ≤ tol) {route : List Phase} (hb : Built net route)
    {r : LaneSRange} (hr : ValidRange r.sRange) (h : PartOf tol route r) : ∃ i j x, FirstPlace tol route r i j x := by
  rcases findIndex_spec ht (built_valid hb) hr with ⟨-, h'⟩ | ⟨i, j, x, -, h'⟩
  · exact absurd h h'
  · exact ⟨i, j, x, h'⟩

/-- C41: two ranges of the route are unrelated exactly if their phases are different and not consecutive,
and coincident exactly if they have the same place. -/
theorem relation_unrelated_iff (net : RoadNet) (geo : Geo) (ht : 0 ≤ geo.tol) (route : List Phase)
    (hb : Built net route) (a b : LaneSRange) (ha : ValidRange a.sRange) (hb' : ValidRange b.sRange) (i j k l : Nat)
    (x y : LaneSRange) (hx : FirstPlace geo.tol route a i j x) (hy : FirstPlace geo.tol route b k l y) :
    (relation net geo route a b = .ok .unrelated ↔ k > i + 1 ∨ i > k + 1) ∧
      (relation net geo route a b = .ok .coincident ↔ i = k ∧ j = l) :=
  ⟨relation_iff net geo ht route hb a b ha hb' i j k l x y hx hy _,
    relation_iff net geo ht route hb a b ha hb' i j k l x y hx hy _⟩

/-- C41: a range of the route is coincident with itself. -/
theorem relation_self (net : RoadNet) (geo : Geo) (ht : 0 ≤ geo.tol) (route : List Phase) (hb : Built net route)
    (a : LaneSRange) (ha : ValidRange a.sRange) (h : PartOf geo.tol route a) :
    relation net geo route a a = .ok .coincident := by
  obtain ⟨i, j, x, hx⟩ := partOf_firstPlace ht hb ha h
  exact (relation_unrelated_iff net geo ht route hb a a ha ha i j i j x x hx hx).2.2 ⟨rfl, rfl⟩

/-- C41: swapping the arguments swaps left and right within a phase, and leaves coincident, unrelated and
unknown as they are. -/
theorem relation_swap (net : RoadNet) (geo : Geo) (ht : 0 ≤ geo.tol) (route : List Phase) (hb : Built net route)
    (a b : LaneSRange) (ha : ValidRange a.sRange) (hb' : ValidRange b.sRange) (rel : Relation)
    (hrel : rel ∈ [Relation.coincident, .left, .right, .adjacentLeft, .adjacentRight, .unrelated, .unknown]) :
    relation net geo route a b = .ok rel ↔ relation net geo route b a = .ok (swapSides rel) := by
  by_cases hp : PartOf geo.tol route a ∧ PartOf geo.tol route b
  · obtain ⟨i, j, x, hx⟩ := partOf_firstPlace ht hb ha hp.1
    obtain ⟨k, l, y, hy⟩ := partOf_firstPlace ht hb hb' hp.2
    rw [relation_iff net geo ht route hb a b ha hb' i j k l x y hx hy,
      relation_iff net geo ht route hb b a hb' ha k l i j y x hy hx]
    simp only [List.mem_cons, List.not_mem_nil, or_false] at hrel
    rcases hrel with rfl | rfl | rfl | rfl | rfl | rfl | rfl <;> simp only [RelatedBy, swapSides] <;> omega
  · have h1 := relation_unknown_iff net geo ht route hb a b ha hb'
    have h2 := relation_unknown_iff net geo ht route hb b a hb' ha
    have hn : ¬PartOf geo.tol route a ∨ ¬PartOf geo.tol route b := by rwa [not_and_or] at hp
    rw [h1.2.2 hn, h2.2.2 hn.symm]
    simp only [List.mem_cons, List.not_mem_nil, or_false] at hrel
    rcases hrel with rfl | rfl | rfl | rfl | rfl | rfl | rfl <;> simp [swapSides]

theorem near_symm {tol : ℚ} {p q : Pos} (h : Near tol p q) : Near tol q p :=
  ⟨h.1, le_of_eq_of_le (by ring) h.2⟩

/-- C41: one range is straight ahead of the other exactly if the other is straight behind the one; and a
range ahead is always seen behind from the other one. -/
theorem relation_succession (net : RoadNet) (geo : Geo) (ht : 0 ≤ geo.tol) (route : List Phase) (hb : Built net route)
    (a b : LaneSRange) (ha : ValidRange a.sRange) (hb' : ValidRange b.sRange) :
    (relation net geo route a b = .ok .succeedingStraight ↔ relation net geo route b a = .ok .precedingStraight) ∧
      (relation net geo route a b = .ok .succeedingLeft ∨ relation net geo route a b = .ok .succeedingRight ↔
        relation net geo route b a = .ok .precedingLeft ∨ relation net geo route b a = .ok .precedingRight) := by
  by_cases hp : PartOf geo.tol route a ∧ PartOf geo.tol route b
  · obtain ⟨i, j, x, hx⟩ := partOf_firstPlace ht hb ha hp.1
    obtain ⟨k, l, y, hy⟩ := partOf_firstPlace ht hb hb' hp.2
    rw [relation_iff net geo ht route hb a b ha hb' i j k l x y hx hy,
      relation_iff net geo ht route hb b a hb' ha k l i j y x hy hx,
      relation_iff net geo ht route hb a b ha hb' i j k l x y hx hy,
      relation_iff net geo ht route hb a b ha hb' i j k l x y hx hy,
      relation_iff net geo ht route hb b a hb' ha k l i j y x hy hx,
      relation_iff net geo ht route hb b a hb' ha k l i j y x hy hx]
    simp only [RelatedBy]
    constructor
    · constructor
      · rintro ⟨h, p, q, hp, hq, hn⟩
        exact ⟨h, q, p, hq, hp, near_symm hn⟩
      · rintro ⟨h, p, q, hp, hq, hn⟩
        exact ⟨h, q, p, hq, hp, near_symm hn⟩
    · constructor
      · rintro (⟨h, p, q, hp, hq, hn, -⟩ | ⟨h, p, q, hp, hq, hn, -⟩) <;>
          by_cases hl : OnTheLeft geo q p
        · exact .inl ⟨h, q, p, hq, hp, fun h => hn (near_symm h), hl⟩
        · exact .inr ⟨h, q, p, hq, hp, fun h => hn (near_symm h), hl⟩
        · exact .inl ⟨h, q, p, hq, hp, fun h => hn (near_symm h), hl⟩
        · exact .inr ⟨h, q, p, hq, hp, fun h => hn (near_symm h), hl⟩
      · rintro (⟨h, p, q, hp, hq, hn, -⟩ | ⟨h, p, q, hp, hq, hn, -⟩) <;>
          by_cases hl : OnTheLeft geo q p
        · exact .inl ⟨h, q, p, hq, hp, fun h => hn (near_symm h), hl⟩
        · exact .inr ⟨h, q, p, hq, hp, fun h => hn (near_symm h), hl⟩
        · exact .inl ⟨h, q, p, hq, hp, fun h => hn (near_symm h), hl⟩
        · exact .inr ⟨h, q, p, hq, hp, fun h => hn (near_symm h), hl⟩
  · have h1 := relation_unknown_iff net geo ht route hb a b ha hb'
    have h2 := relation_unknown_iff net geo ht route hb b a hb' ha
    have hn : ¬PartOf geo.tol route a ∨ ¬PartOf geo.tol route b := by rwa [not_and_or] at hp
    rw [h1.2.2 hn, h2.2.2 hn.symm]
    simp

/-- C41: relations in the route of two phases; the hypotheses are met by it. -/
example : 0 ≤ inRowGeo.tol ∧ Built inRow inRowRoute ∧
    FirstPlace inRowGeo.tol inRowRoute ⟨"1", 3, 4⟩ 0 1 ⟨"1", 2, 10⟩ ∧
    relation inRow inRowGeo inRowRoute ⟨"0", 2, 3⟩ ⟨"1", 3, 4⟩ = .ok .adjacentLeft ∧
    relation inRow inRowGeo inRowRoute ⟨"1", 3, 4⟩ ⟨"0", 2, 3⟩ = .ok .adjacentRight ∧
    relation inRow inRowGeo inRowRoute ⟨"0", 2, 3⟩ ⟨"2", 3, 4⟩ = .ok .succeedingStraight ∧
    relation inRow inRowGeo inRowRoute ⟨"0", 2, 3⟩ ⟨"3", 3, 4⟩ = .ok .succeedingLeft ∧
    relation inRow inRowGeo inRowRoute ⟨"3", 3, 4⟩ ⟨"0", 2, 3⟩ = .ok .precedingRight ∧
    relation inRow inRowGeo inRowRoute ⟨"3", 3, 9⟩ ⟨"0", 2, 3⟩ = .ok .unknown := by
  refine ⟨by decide +kernel, inRowRoute_built, ?_, by decide +kernel, by decide +kernel, by decide +kernel,
    by decide +kernel, by decide +kernel, by decide +kernel⟩
  have hv : ValidRange (⟨"1", 3, 4⟩ : LaneSRange).sRange := by constructor <;> norm_num
  have hf : findIndex inRowGeo.tol inRowRoute ⟨"1", 3, 4⟩ = .ok (some ⟨0, 1⟩) := by decide +kernel
  obtain ⟨j, x, h1, h2⟩ := findIndex_some (by decide +kernel) (built_valid inRowRoute_built) hv hf
  have hj : j = 1 := by
    have := congrArg Index.range h1
    dsimp only at this
    omega
  subst hj
  have := rangeAt_unique h2.there ⟨_, rfl, rfl⟩
  rw [this] at h2
  exact h2

/-! ### C42: the lane-s route -/

/-- The parts of `ComputeLaneSRoute`. -/
theorem computeLaneSRoute_parts {net : RoadNet} {geo : Geo} {route : List Phase} (start : RoadPos) :
    (∃ e, e ≠ .depth ∧ ∀ depth, computeLaneSRoute net geo route depth start = .error e) ∨
      ∃ e si ei cur acc, EndOf route e ∧ 0 ≤ e.s ∧ 0 ≤ start.s ∧
        findIndex geo.tol route (pointOf net start) = .ok (some si) ∧
        findIndex geo.tol route (pointOf net e) = .ok (some ei) ∧
        backwards net geo route si.phase (route.length - si.phase + 1) ei [] = .ok (cur, acc) ∧
        ∀ depth, computeLaneSRoute net geo route depth start =
          (towardsStart net geo route si depth cur acc).map (fun r => ⟨r⟩) := by
  have pt : ∀ q, (∃ e, pointRange net q = .error e) ∨ (0 ≤ q.s ∧ pointRange net q = .ok (pointOf net q)) := by
    intro q
    cases h : pointRange net q with
    | error e => exact .inl ⟨e, rfl⟩
    | ok r =>
      unfold pointRange at h
      rw [bind_ok] at h
      obtain ⟨w, hw, h⟩ := h
      obtain ⟨rfl, h0, -⟩ := Router.make_ok hw
      cases h
      exact .inr ⟨h0, rfl⟩
  cases he : route.getLast?.bind (fun p => p.endPositions.head?) with
  | none =>
    refine .inl ⟨.err .ub, by simp, fun depth => ?_⟩
    unfold computeLaneSRoute
    rw [he]
  | some e =>
    have hend : EndOf route e := by
      rw [Option.bind_eq_some_iff] at he
      exact he
    rcases pt e with ⟨er, h1⟩ | ⟨h0e, h1⟩
    · refine .inl ⟨.err er, by simp, fun depth => ?_⟩
      unfold computeLaneSRoute
      rw [he]
      simp only [h1, lift, bind, Except.bind]
    rcases pt start with ⟨er, h2⟩ | ⟨h0s, h2⟩
    · refine .inl ⟨.err er, by simp, fun depth => ?_⟩
      unfold computeLaneSRoute
      rw [he]
      simp only [h1, h2, lift, bind, Except.bind]
    cases h3 : findIndex geo.tol route (pointOf net start) with
    | error er =>
      refine .inl ⟨.err er, by simp, fun depth => ?_⟩
      unfold computeLaneSRoute
      rw [he]
      simp only [h1, h2, h3, lift, bind, Except.bind]
    | ok si =>
      cases si with
      | none =>
        refine .inl ⟨.err .throws, by simp, fun depth => ?_⟩
        unfold computeLaneSRoute
        rw [he]
        simp only [h1, h2, h3, lift, bind, Except.bind]
      | some si =>
        cases h4 : findIndex geo.tol route (pointOf net e) with
        | error er =>
          refine .inl ⟨.err er, by simp, fun depth => ?_⟩
          unfold computeLaneSRoute
          rw [he]
          simp only [h1, h2, h3, h4, lift, bind, Except.bind]
        | ok ei =>
          cases ei with
          | none =>
            refine .inl ⟨.err .throws, by simp, fun depth => ?_⟩
            unfold computeLaneSRoute
            rw [he]
            simp only [h1, h2, h3, h4, lift, bind, Except.bind]
          | some ei =>
            cases h5 : backwards net geo route si.phase (route.length - si.phase + 1) ei [] with
            | error er =>
              refine .inl ⟨.err er, by simp, fun depth => ?_⟩
              unfold computeLaneSRoute
              rw [he]
              simp only [h1, h2, h3, h4, h5, lift, bind, Except.bind]
            | ok r =>
              obtain ⟨cur, acc⟩ := r
              refine .inr ⟨e, si, ei, cur, acc, hend, h0e, h0s, rfl, h4, h5, fun depth => ?_⟩
              unfold computeLaneSRoute
              rw [he]
              simp only [h1, h2, h3, h4, h5, lift, bind, Except.bind]
              cases towardsStart net geo route si depth cur acc <;> rfl

theorem pointOf_valid (net : RoadNet) {q : RoadPos} (h : 0 ≤ q.s) : ValidRange (pointOf net q).sRange := ⟨h, h⟩

/-- C42 for every returned route: consecutive ranges are next to each other in a phase or in consecutive
phases and then straight after one another, the last range is the first one of the route that has the end of
the route, and the first range is coincident with the first one that has the start. -/
theorem laneSRoute_sound (net : RoadNet) (geo : Geo) (ht : 0 ≤ geo.tol) (route : List Phase) (hb : Built net route)
    (depth : Nat) (start : RoadPos) (out : LaneSRoute)
    (h : computeLaneSRoute net geo route depth start = .ok out) :
    ∃ e i j x i' j' s y, EndOf route e ∧ FirstPlace geo.tol route (pointOf net e) i j x ∧
      out.ranges.getLast? = some x ∧
      FirstPlace geo.tol route (pointOf net start) i' j' s ∧ out.ranges.head? = some y ∧
      relation net geo route s y = .ok .coincident ∧
      out.ranges.IsChain (fun a b => Beside route a b ∨
        (InNextPhase route a b ∧ relation net geo route b a = .ok .precedingStraight)) := by
  rcases computeLaneSRoute_parts (net := net) (geo := geo) (route := route) start with
    ⟨e, -, he⟩ | ⟨e, si, ei, cur, acc, h1, h2, h3, h4, h5, h6, h7⟩
  · rw [he] at h; cases h
  · have hv := built_valid hb
    obtain ⟨j', s, hs, hs'⟩ := findIndex_some ht hv (pointOf_valid net h3) h4
    obtain ⟨j, x, hx, hx'⟩ := findIndex_some ht hv (pointOf_valid net h2) h5
    rw [h7] at h
    cases ho : towardsStart net geo route si depth cur acc with
    | error er => rw [ho] at h; cases h
    | ok ranges =>
      rw [ho] at h
      cases h
      have gs : getRange route si = .ok s := by rw [hs]; exact rangeAt_getRange hs'.there
      have gx : getRange route ei = .ok x := by rw [hx]; exact rangeAt_getRange hx'.there
      obtain ⟨z, gz, -, hcol⟩ := backwards_sound (e := x) _ _ _ _ _ _ gx ⟨by simp, rfl⟩ h6
      obtain ⟨⟨hch, hlast⟩, y, hy, hrel⟩ := towardsStart_sound (e := x) gs _ _ _ _ (by
        intro r hr
        rw [gz] at hr
        cases hr
        exact hcol) ho
      exact ⟨e, _, j, x, _, j', s, y, h1, hx', hlast, hs', hy, hrel, hch⟩

/-- C42.  Where no range of the route covers another one: the returned route begins with the range that has
the start, and crossings from one phase to the next go from the end of a range to the beginning of the next.
Missing: routes in which a range covers another one, for which this is false (`laneSRoute_wrong_start`). -/
theorem laneSRoute_begins_partial (net : RoadNet) (geo : Geo) (ht : 0 ≤ geo.tol) (route : List Phase)
    (hb : Built net route) (hd : Distinct geo.tol route) (depth : Nat) (start : RoadPos) (out : LaneSRoute)
    (h : computeLaneSRoute net geo route depth start = .ok out) :
    ∃ e x y, EndOf route e ∧ out.ranges.getLast? = some x ∧ Holds geo.tol x (pointOf net e) ∧
      out.ranges.head? = some y ∧ Holds geo.tol y (pointOf net start) ∧
      out.ranges.IsChain (fun a b => Beside route a b ∨ (InNextPhase route a b ∧ LeadsTo net geo a b)) := by
  have hv := built_valid hb
  obtain ⟨e, i, j, x, i', j', s, y, h1, h2, h3, h4, h5, h6, h7⟩ :=
    laneSRoute_sound net geo ht route hb depth start out h
  have hany : out.ranges.IsChain (fun a b => Beside route a b ∨ (InNextPhase route a b ∧ LeadsTo net geo a b)) := by
    refine h7.imp ?_
    rintro a b (hab | ⟨hab, hr⟩)
    · exact .inl hab
    · obtain ⟨i, j, k, ha, hb⟩ := hab
      exact .inr ⟨⟨i, j, k, ha, hb⟩, (precedingStraight_iff ht hv hd ha hb).1 hr⟩
  have hmem : ∃ k l, RangeAt route k l y := by
    cases hr : out.ranges with
    | nil => rw [hr] at h5; cases h5
    | cons z rest =>
      rw [hr] at h5 h3 hany
      cases h5
      cases rest with
      | nil =>
        cases h3
        exact ⟨_, _, h2.there⟩
      | cons w rest =>
        rw [List.isChain_cons_cons] at hany
        rcases hany.1 with ⟨i, j, ⟨ha, -⟩ | ⟨ha, -⟩⟩ | ⟨⟨i, j, k, ha, -⟩, -⟩ <;> exact ⟨_, _, ha⟩
  obtain ⟨k, l, hy⟩ := hmem
  obtain ⟨rel, hr1, hr2⟩ := relation_of_distinct (geo := geo) ht hv hd h4.there hy
  rw [hr1] at h6
  cases h6
  obtain ⟨rfl, rfl⟩ := (hr2 .coincident).2 rfl
  have := rangeAt_unique h4.there hy
  subst this
  exact ⟨e, x, s, h1, h3, h2.holds, h5, h4.holds, hany⟩

theorem rangeAt_lt {route : List Phase} {i j : Nat} {x : LaneSRange} (h : RangeAt route i j x) {n : Nat}
    (hn : ∀ p ∈ route, p.ranges.length ≤ n) : j < n := by
  obtain ⟨p, hp, hj⟩ := h
  have := (List.getElem?_eq_some_iff.1 hj).1
  have := hn p (List.mem_of_getElem? hp)
  omega

/-- C42 claims that the computation terminates.  Proved where no range of the route covers another one: the
last loop runs at most as often as a phase has ranges.  Missing: other routes, for which it is false
(`laneSRoute_diverges`). -/
theorem laneSRoute_terminates_partial (net : RoadNet) (geo : Geo) (ht : 0 ≤ geo.tol) (route : List Phase)
    (hb : Built net route) (hd : Distinct geo.tol route) (start : RoadPos) (n : Nat)
    (hn : ∀ p ∈ route, p.ranges.length ≤ n) (depth : Nat) (hdepth : n ≤ depth) :
    computeLaneSRoute net geo route depth start ≠ .error .depth ∧
      computeLaneSRoute net geo route depth start = computeLaneSRoute net geo route n start := by
  rcases computeLaneSRoute_parts (net := net) (geo := geo) (route := route) start with
    ⟨e, hne, he⟩ | ⟨e, si, ei, cur, acc, h1, h2, h3, h4, h5, h6, h7⟩
  · rw [he, he]
    exact ⟨fun h => hne (by cases h; rfl), rfl⟩
  · have hv := built_valid hb
    obtain ⟨j', s, hs, hs'⟩ := findIndex_some ht hv (pointOf_valid net h3) h4
    obtain ⟨j, x, hx, hx'⟩ := findIndex_some ht hv (pointOf_valid net h2) h5
    have gx : getRange route ei = .ok x := by rw [hx]; exact rangeAt_getRange hx'.there
    obtain ⟨z, gz, hph, -⟩ := backwards_sound (e := x) _ _ _ _ _ _ gx ⟨by simp, rfl⟩ h6
    obtain ⟨m, hm, hz⟩ := getRange_ok.1 gz
    have hcur : cur = ⟨si.phase, m⟩ := by
      cases cur
      simp only at hm hph
      rw [hm, hph]
    rw [hph] at hz
    have hj' := rangeAt_lt hs'.there hn
    have hm' := rangeAt_lt hz hn
    have tot : ∀ k ≥ n, ∃ o, towardsStart net geo route si k cur acc = .ok o := by
      intro k hk
      rw [hs, hcur]
      rcases le_total j' m with h | h
      · exact towardsStart_total ht hv hd hs'.there (m - j') m k acc (.inr (by omega)) (by omega) ⟨_, hz⟩
      · exact towardsStart_total ht hv hd hs'.there (j' - m) m k acc (.inl (by omega)) (by omega) ⟨_, hz⟩
    obtain ⟨o, ho⟩ := tot n le_rfl
    have same : ∀ k ≥ n, towardsStart net geo route si k cur acc = .ok o := by
      intro k hk
      induction k, hk using Nat.le_induction with
      | base => exact ho
      | succ k hk ih => rw [towardsStart_succ k cur acc (by rw [ih]; simp), ih]
    rw [h7, h7, same depth hdepth, ho]
    exact ⟨by simp [Except.map], rfl⟩

/-- C42: where no range of the route covers another one, and in each phase from that of the start to that of
the end some range has a range of the phase before leading to it, a route is returned. -/
theorem laneSRoute_complete (net : RoadNet) (geo : Geo) (ht : 0 ≤ geo.tol) (route : List Phase)
    (hb : Built net route) (hd : Distinct geo.tol route) (start e : RoadPos) (hs : 0 ≤ start.s) (he : EndOf route e)
    (i j i' j' : Nat) (x y : LaneSRange) (hx : FirstPlace geo.tol route (pointOf net start) i j x)
    (hy : FirstPlace geo.tol route (pointOf net e) i' j' y) (hi : i ≤ i')
    (hway : ∀ k, i ≤ k → k < i' → ∃ m n a b, RangeAt route k m a ∧ RangeAt route (k + 1) n b ∧ LeadsTo net geo a b)
    (depth : Nat) (hdepth : ∀ p ∈ route, p.ranges.length ≤ depth) :
    ∃ out, computeLaneSRoute net geo route depth start = .ok out := by
  have hv := built_valid hb
  have hes : 0 ≤ e.s := by
    obtain ⟨p, hp, hpe⟩ := he
    obtain ⟨-, -, -, -, -, -, h⟩ := phase_wellFormed net p (hb.2 p (List.mem_of_getLast? hp))
    exact (h e (List.mem_of_mem_head? hpe)).1
  obtain ⟨hfs, hfe⟩ : findIndex geo.tol route (pointOf net start) = .ok (some ⟨i, j⟩) ∧
      findIndex geo.tol route (pointOf net e) = .ok (some ⟨i', j'⟩) := by
    constructor
    · rcases findIndex_spec ht hv (pointOf_valid net hs) with ⟨-, h⟩ | ⟨i2, j2, x2, h, h2⟩
      · exact absurd ⟨_, _, _, hx.there, hx.holds⟩ h
      · obtain ⟨rfl, rfl, rfl⟩ := firstPlace_unique hx h2
        exact h
    · rcases findIndex_spec ht hv (pointOf_valid net hes) with ⟨-, h⟩ | ⟨i2, j2, x2, h, h2⟩
      · exact absurd ⟨_, _, _, hy.there, hy.holds⟩ h
      · obtain ⟨rfl, rfl, rfl⟩ := firstPlace_unique hy h2
        exact h
  have hlt : i' < route.length := by
    obtain ⟨p, hp, -⟩ := hy.there
    exact (List.getElem?_eq_some_iff.1 hp).1
  obtain ⟨⟨cur, acc⟩, hback⟩ := backwards_total (geo := geo) (sp := i) ht hv hd (i' - i) i' j' (route.length - i + 1) [] (by omega)
    (by omega) ⟨_, hy.there⟩ (fun k h1 h2 => by
      obtain ⟨m, n, a, b, ha, hb, hl⟩ := hway k h1 h2
      exact ⟨n, a, b, m, ha, hb, hl⟩)
  have hend : route.getLast?.bind (fun p => p.endPositions.head?) = some e := Option.bind_eq_some_iff.2 he
  have pt : ∀ q, 0 ≤ q.s → pointRange net q = .ok (pointOf net q) := by
    intro q hq
    unfold pointRange
    rw [make_ok hq hq]
    rfl
  have gx := rangeAt_getRange hy.there
  obtain ⟨z, gz, hph, -⟩ := backwards_sound (e := y) _ _ _ _ _ _ gx ⟨by simp, rfl⟩ hback
  obtain ⟨m, hm, hz⟩ := getRange_ok.1 gz
  have hcur : cur = ⟨i, m⟩ := by
    cases cur
    simp only at hm hph
    rw [hm, hph]
  rw [hph] at hz
  have hj' := rangeAt_lt hx.there hdepth
  have hm' := rangeAt_lt hz hdepth
  obtain ⟨o, ho⟩ : ∃ o, towardsStart net geo route ⟨i, j⟩ depth cur acc = .ok o := by
    rw [hcur]
    rcases le_total j m with h | h
    · exact towardsStart_total ht hv hd hx.there (m - j) m depth acc (.inr (by omega)) (by omega) ⟨_, hz⟩
    · exact towardsStart_total ht hv hd hx.there (j - m) m depth acc (.inl (by omega)) (by omega) ⟨_, hz⟩
  refine ⟨⟨o⟩, ?_⟩
  unfold computeLaneSRoute
  rw [hend]
  simp only [pt e hes, pt start hs, hfs, hfe, hback, ho, lift, bind, Except.bind, pure, Except.pure]

/-- C42: a start position that is on no range of the route is rejected (the header says that it is mapped to
the route). -/
theorem laneSRoute_start_outside (net : RoadNet) (geo : Geo) (ht : 0 ≤ geo.tol) (route : List Phase)
    (hb : Built net route) (start : RoadPos) (hs : 0 ≤ start.s) (h : ¬PartOf geo.tol route (pointOf net start))
    (depth : Nat) : computeLaneSRoute net geo route depth start = .error (.err .throws) := by
  have hv := built_valid hb
  have pt : ∀ q, 0 ≤ q.s → pointRange net q = .ok (pointOf net q) := by
    intro q hq
    unfold pointRange
    rw [make_ok hq hq]
    rfl
  obtain ⟨e, he⟩ : ∃ e, EndOf route e := by
    have hp := List.getLast?_eq_some_getLast hb.1
    generalize route.getLast hb.1 = p at hp
    obtain ⟨-, -, hne, -⟩ := phase_wellFormed net p (hb.2 p (List.mem_of_getLast? hp))
    obtain ⟨e, he⟩ := Option.isSome_iff_exists.1 (List.isSome_head?.2 hne)
    exact ⟨e, p, hp, he⟩
  have hes : 0 ≤ e.s := by
    obtain ⟨p, hp, hpe⟩ := he
    obtain ⟨-, -, -, -, -, -, h⟩ := phase_wellFormed net p (hb.2 p (List.mem_of_getLast? hp))
    exact (h e (List.mem_of_mem_head? hpe)).1
  have hend : route.getLast?.bind (fun p => p.endPositions.head?) = some e := Option.bind_eq_some_iff.2 he
  have hf : findIndex geo.tol route (pointOf net start) = .ok none := by
    rcases findIndex_spec ht hv (pointOf_valid net hs) with ⟨h', -⟩ | ⟨i2, j2, x2, -, h2⟩
    · exact h'
    · exact absurd ⟨_, _, _, h2.there, h2.holds⟩ h
  unfold computeLaneSRoute
  rw [hend]
  simp only [pt e hes, pt start hs, hf, lift, bind, Except.bind]

/-- C42: the route of two phases meets the hypotheses, and the way from lane 1 to the end on lane 2 changes
the lane in the second phase. -/
example : 0 ≤ inRowGeo.tol ∧ Built inRow inRowRoute ∧ Distinct inRowGeo.tol inRowRoute ∧
    (∀ p ∈ inRowRoute, p.ranges.length ≤ 2) ∧ LeadsTo inRow inRowGeo ⟨"0", 2, 10⟩ ⟨"2", 0, 5⟩ ∧
    computeLaneSRoute inRow inRowGeo inRowRoute 2 ⟨1, 3, 0, 0⟩ =
      .ok ⟨[⟨"1", 2, 10⟩, ⟨"0", 2, 10⟩, ⟨"2", 0, 5⟩]⟩ := by
  refine ⟨by decide +kernel, inRowRoute_built, ?_, by decide +kernel, ?_, by decide +kernel⟩
  · have at_ : ∀ i j x, RangeAt inRowRoute i j x → i < 2 ∧ j < 2 ∧
        x.laneId = if i = 0 then (if j = 0 then "0" else "1") else if j = 0 then "2" else "3" := by
      rintro i j x ⟨p, hp, hx⟩
      have hi : i < 2 := (List.getElem?_eq_some_iff.1 hp).1
      have hj : j < 2 := by
        have := (List.getElem?_eq_some_iff.1 hx).1
        interval_cases i <;> cases hp <;> exact this
      interval_cases i <;> cases hp <;> interval_cases j <;> cases hx <;> exact ⟨by norm_num, by norm_num, rfl⟩
    intro i j x i' j' y hx hy hh
    obtain ⟨h1, h2, h3⟩ := at_ _ _ _ hx
    obtain ⟨h4, h5, h6⟩ := at_ _ _ _ hy
    have := hh.1
    rw [h3, h6] at this
    interval_cases i <;> interval_cases j <;> interval_cases i' <;> interval_cases j' <;> simp_all
  · refine ⟨_, _, ⟨0, rfl, rfl⟩, ⟨2, rfl, rfl⟩, by decide +kernel, by decide +kernel⟩

/-- Witness against C42: in a route of one phase whose ranges are on the lanes 1, 2, 1 and 0 the computation
from lane 2 to the end on lane 0 never ends. -/
theorem laneSRoute_diverges : Built tripleNet [zigzagPhase] ∧
    PartOf tripleGeo.tol [zigzagPhase] (pointOf tripleNet ⟨2, 0, 0, 0⟩) ∧
    ∀ depth, computeLaneSRoute tripleNet tripleGeo [zigzagPhase] depth ⟨2, 0, 0, 0⟩ = .error .depth := by
  refine ⟨⟨by simp, by simpa using zigzagPhase_built⟩, ?_, ?_⟩
  · exact ⟨0, 1, ⟨"2", 0, 10⟩, ⟨zigzagPhase, rfl, rfl⟩, rfl, fun y hy => ⟨y, by
      rcases hy with hy | hy <;> left <;> dsimp [pointOf] at hy ⊢ <;> constructor <;> linarith [hy.1, hy.2], by
      rw [sub_self, abs_zero]; decide +kernel⟩⟩
  · have h3 : ∀ n acc, towardsStart tripleNet tripleGeo [zigzagPhase] ⟨0, 1⟩ (n + 1) ⟨0, 3⟩ acc =
        towardsStart tripleNet tripleGeo [zigzagPhase] ⟨0, 1⟩ n ⟨0, 2⟩ (⟨"0", 0, 10⟩ :: acc) := by
      intro n acc
      have g1 : getRange [zigzagPhase] ⟨0, 3⟩ = .ok ⟨"0", 0, 10⟩ := by decide +kernel
      have g2 : getRange [zigzagPhase] ⟨0, 1⟩ = .ok ⟨"2", 0, 10⟩ := by decide +kernel
      have g3 : relation tripleNet tripleGeo [zigzagPhase] ⟨"2", 0, 10⟩ ⟨"0", 0, 10⟩ = .ok .left := by decide +kernel
      rw [towardsStart]
      simp only [g1, g2, g3, lift, bind, Except.bind]
      rfl
    have h2 : ∀ n acc, towardsStart tripleNet tripleGeo [zigzagPhase] ⟨0, 1⟩ (n + 1) ⟨0, 2⟩ acc =
        towardsStart tripleNet tripleGeo [zigzagPhase] ⟨0, 1⟩ n ⟨0, 3⟩ (⟨"1", 4, 6⟩ :: acc) := by
      intro n acc
      have g1 : getRange [zigzagPhase] ⟨0, 2⟩ = .ok ⟨"1", 4, 6⟩ := by decide +kernel
      have g2 : getRange [zigzagPhase] ⟨0, 1⟩ = .ok ⟨"2", 0, 10⟩ := by decide +kernel
      have g3 : relation tripleNet tripleGeo [zigzagPhase] ⟨"2", 0, 10⟩ ⟨"1", 4, 6⟩ = .ok .adjacentRight := by
        decide +kernel
      rw [towardsStart]
      simp only [g1, g2, g3, lift, bind, Except.bind]
      rfl
    have key : ∀ n, (∀ acc, towardsStart tripleNet tripleGeo [zigzagPhase] ⟨0, 1⟩ n ⟨0, 3⟩ acc = .error .depth) ∧
        ∀ acc, towardsStart tripleNet tripleGeo [zigzagPhase] ⟨0, 1⟩ n ⟨0, 2⟩ acc = .error .depth := by
      intro n
      induction n with
      | zero => exact ⟨fun _ => rfl, fun _ => rfl⟩
      | succ n ih => exact ⟨fun acc => (h3 n acc).trans (ih.2 _), fun acc => (h2 n acc).trans (ih.1 _)⟩
    intro depth
    have e1 : pointRange tripleNet ⟨0, 10, 0, 0⟩ = .ok ⟨"0", 10, 10⟩ := by decide +kernel
    have e2 : pointRange tripleNet ⟨2, 0, 0, 0⟩ = .ok ⟨"2", 0, 0⟩ := by decide +kernel
    have e3 : findIndex tripleGeo.tol [zigzagPhase] ⟨"2", 0, 0⟩ = .ok (some ⟨0, 1⟩) := by decide +kernel
    have e4 : findIndex tripleGeo.tol [zigzagPhase] ⟨"0", 10, 10⟩ = .ok (some ⟨0, 3⟩) := by decide +kernel
    have e5 : backwards tripleNet tripleGeo [zigzagPhase] 0 2 ⟨0, 3⟩ [] = .ok (⟨0, 3⟩, []) := by decide +kernel
    have e6 : ([zigzagPhase].getLast?.bind fun p => p.endPositions.head?) = some ⟨0, 10, 0, 0⟩ := rfl
    unfold computeLaneSRoute
    rw [e6]
    simp only [e1, e2, e3, e4, lift, bind, Except.bind, List.length_cons, List.length_nil]
    rw [e5]
    simp only [(key depth).1]

/-- Witness against the beginning of C42: from the position at `s = 1` of lane 1, in the same route, the
returned way begins with the range from 4 to 6 of this lane. -/
theorem laneSRoute_wrong_start : ∃ out y, computeLaneSRoute tripleNet tripleGeo [zigzagPhase] 4 ⟨1, 1, 0, 0⟩ = .ok out ∧
    out.ranges.head? = some y ∧ ¬Holds tripleGeo.tol y (pointOf tripleNet ⟨1, 1, 0, 0⟩) := by
  refine ⟨⟨[⟨"1", 4, 6⟩, ⟨"0", 0, 10⟩]⟩, ⟨"1", 4, 6⟩, by decide +kernel, rfl, ?_⟩
  rintro ⟨-, h⟩
  obtain ⟨x, hx | hx, h⟩ := h 1 (.inl ⟨le_rfl, le_rfl⟩) <;> rw [abs_le] at h <;> dsimp only at hx <;>
    have ht : tripleGeo.tol = 1 / 100 := rfl <;> rw [ht] at h <;> linarith [hx.1, hx.2, h.1, h.2]

end Maliput.Props
