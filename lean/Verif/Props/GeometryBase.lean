import Verif.Lemmas.GeometryBuild

set_option autoImplicit false
namespace Maliput.Props
open Maliput Maliput.Build

/-! ### C15: left and right neighbours -/

/-- A history of calls, for the examples. -/
def runOps (w : World) : List Op → Option World
  | [] => some w
  | o :: os => match o.exec w with
    | some (w', _) => runOps w' os
    | none => none

/-- As `runOps`, but every call has to succeed. -/
def buildOps (w : World) : List Op → Option World
  | [] => some w
  | o :: os => match o.exec w with
    | some (w', .ok ()) => buildOps w' os
    | _ => none

theorem reach_runOps {w w' : World} (h : Reach w) (os : List Op) (he : runOps w os = some w') : Reach w' := by
  induction os generalizing w with
  | nil => cases he; exact h
  | cons o os ih =>
    unfold runOps at he
    split at he
    · rename_i e; exact ih (h.step o e) he
    · cases he

theorem built_buildOps {w w' : World} (h : Built w) (os : List Op) (he : buildOps w os = some w') : Built w' := by
  induction os generalizing w with
  | nil => cases he; exact h
  | cons o os ih =>
    unfold buildOps at he
    split at he
    · rename_i e; exact ih (h.step o e) he
    · cases he

/-- Every lane is in exactly one segment, and `segment.lane(lane.index())` is the lane; `segment.lane(i)`
has index `i` and belongs to that segment. -/
theorem lane_index {w : World} (h : Reach w) :
    (∀ l, l < w.nLanes → ∃ s, (w.lane l).segment = some s ∧ segmentLane w s (w.lane l).index = .ok l) ∧
    (∀ s (i : Int) l, segmentLane w s i = .ok l →
      l < w.nLanes ∧ (w.lane l).segment = some s ∧ (w.lane l).index = i) := by
  have hI := invL_reach h
  constructor
  · intro l hl
    obtain ⟨s, hs⟩ := hI.att l hl
    obtain ⟨i, hi⟩ := hI.bwd l s hl hs
    refine ⟨s, hs, ?_⟩
    rw [(hI.fwd s l i hi).2.1]
    simp [segmentLane, hi, Int.not_lt.mpr (Int.natCast_nonneg i)]
  · intro s i l hl
    unfold segmentLane at hl
    split at hl
    · cases hl
    · rename_i hneg
      split at hl
      · rename_i e
        cases hl
        obtain ⟨h1, h2, h3⟩ := hI.fwd s l _ e
        exact ⟨h3, h1, by rw [h2]; omega⟩
      · cases hl

/-- A segment's lanes are exactly the indices `0 … n-1`. -/
theorem segmentLane_defined (w : World) (s : Nat) (i : Int) :
    (∃ l, segmentLane w s i = .ok l) ↔ 0 ≤ i ∧ i < ((w.segment s).lanes.length : Int) := by
  unfold segmentLane
  split
  · rename_i h
    constructor
    · rintro ⟨l, h⟩; cases h
    · intro h'; omega
  · rename_i h
    constructor
    · rintro ⟨l, hl⟩
      split at hl
      · rename_i e
        have := (List.getElem?_eq_some_iff.mp e).1
        omega
      · cases hl
    · intro ⟨h1, h2⟩
      have : i.toNat < (w.segment s).lanes.length := by omega
      rw [List.getElem?_eq_getElem this]
      exact ⟨_, rfl⟩

theorem toLeft_eq {w : World} (h : Reach w) {l : Nat} (hl : l < w.nLanes) :
    ∃ (s i : Nat), (w.segment s).lanes[i]? = some l ∧ toLeft w l = .ok (w.segment s).lanes[i + 1]? ∧
      toRight w l = .ok (if i = 0 then none else (w.segment s).lanes[i - 1]?) := by
  have hI := invL_reach h
  obtain ⟨s, hs⟩ := hI.att l hl
  obtain ⟨i, hi⟩ := hI.bwd l s hl hs
  have hidx := (hI.fwd s l i hi).2.1
  have hlt := (List.getElem?_eq_some_iff.mp hi).1
  refine ⟨s, i, hi, ?_, ?_⟩
  · unfold toLeft
    rw [hs, hidx]
    dsimp only
    split
    · rename_i e
      rw [List.getElem?_eq_none (by omega)]
    · rename_i e
      have h1 : i + 1 < (w.segment s).lanes.length := by omega
      unfold segmentLane
      rw [if_neg (by omega), show ((i : Int) + 1).toNat = i + 1 by omega, List.getElem?_eq_getElem h1]
      rfl
  · unfold toRight
    rw [hs, hidx]
    by_cases e : i = 0
    · rw [if_pos (by omega), if_pos e]
    · have h1 : i - 1 < (w.segment s).lanes.length := by omega
      rw [if_neg (by omega), if_neg e]
      unfold segmentLane
      dsimp only
      rw [if_neg (by omega), show ((i : Int) - 1).toNat = i - 1 by omega, List.getElem?_eq_getElem h1]
      rfl

/-- After any history of calls (also failed ones), for all lanes `l`, `m`: `to_left` and `to_right` do not
throw; `l.to_left()` is `m` iff `m.to_right()` is `l`; `to_left` goes to the next index of the same segment
and is null exactly at the last lane; `to_right` is null exactly at the first. -/
theorem toLeft_toRight {w : World} (h : Reach w) :
    (∀ l, l < w.nLanes → ∃ a b, toLeft w l = .ok a ∧ toRight w l = .ok b) ∧
    (∀ l m, l < w.nLanes → m < w.nLanes → (toLeft w l = .ok (some m) ↔ toRight w m = .ok (some l))) ∧
    (∀ l m, l < w.nLanes → toLeft w l = .ok (some m) →
      m < w.nLanes ∧ (w.lane m).segment = (w.lane l).segment ∧ (w.lane m).index = (w.lane l).index + 1) ∧
    (∀ l s, l < w.nLanes → (w.lane l).segment = some s →
      (toLeft w l = .ok none ↔ (w.lane l).index = ((w.segment s).lanes.length : Int) - 1) ∧
      (toRight w l = .ok none ↔ (w.lane l).index = 0)) := by
  have hI := invL_reach h
  refine ⟨?_, ?_, ?_, ?_⟩
  · intro l hl
    obtain ⟨s, i, -, h1, h2⟩ := toLeft_eq h hl
    exact ⟨_, _, h1, h2⟩
  · intro l m hl hm
    obtain ⟨s, i, hi, h1, -⟩ := toLeft_eq h hl
    obtain ⟨t, k, hk, -, h2⟩ := toLeft_eq h hm
    rw [h1, h2]
    simp only [Except.ok.injEq]
    obtain ⟨a1, a2, -⟩ := hI.fwd s l i hi
    obtain ⟨b1, b2, -⟩ := hI.fwd t m k hk
    constructor
    · intro e
      obtain ⟨c1, c2, -⟩ := hI.fwd s m (i + 1) e
      rw [b1] at c1; cases c1
      have : k = i + 1 := by omega
      subst this
      simpa using hi
    · intro e
      split at e
      · cases e
      · rename_i hk0
        obtain ⟨c1, c2, -⟩ := hI.fwd t l (k - 1) e
        rw [a1] at c1; cases c1
        have : k = i + 1 := by omega
        subst this
        exact hk
  · intro l m hl hm
    obtain ⟨s, i, hi, h1, -⟩ := toLeft_eq h hl
    rw [h1] at hm
    obtain ⟨a1, a2, -⟩ := hI.fwd s l i hi
    obtain ⟨b1, b2, b3⟩ := hI.fwd s m (i + 1) (Except.ok.inj hm)
    exact ⟨b3, by rw [a1, b1], by rw [a2, b2]; rfl⟩
  · intro l s hl hs
    obtain ⟨t, i, hi, h1, h2⟩ := toLeft_eq h hl
    obtain ⟨a1, a2, -⟩ := hI.fwd t l i hi
    rw [hs] at a1; cases a1
    have hlt := (List.getElem?_eq_some_iff.mp hi).1
    rw [h1, h2, a2]
    simp only [Except.ok.injEq]
    constructor
    · rw [List.getElem?_eq_none_iff]; omega
    · split
      · rename_i e; simp [e]
      · rename_i e
        have h1 : i - 1 < (w.segment s).lanes.length := by omega
        rw [List.getElem?_eq_getElem h1]
        simp [e]

/-- Three lanes, the second one added after a rejected call. -/
example : ∃ w, Reach w ∧ w.nLanes = 4 ∧ toLeft w 0 = .ok (some 1) ∧ toRight w 1 = .ok (some 0) ∧
    toLeft w 3 = .ok none ∧ toRight w 0 = .ok none := by
  have h : (runOps .init [.newSegment "s", .newJunction "j", .addSegment 0 0, .addJunction 0, .addLane 0 "a",
    .addLane 0 "b", .addLane 0 "b", .addLane 0 "c"]).isSome := by decide
  refine ⟨_, reach_runOps .init _ (Option.some_get h).symm, ?_⟩
  decide +revert

/-! ### C16: the id index -/

/-- After any history of successful calls, in whatever order parents and children were put together, the id
index maps an id to an object iff the object has that id and is in the road geometry. -/
theorem idIndex_faithful {w : World} (h : Built w) :
    (∀ id l, getLane w id = some l ↔ HasLane w l ∧ (w.lane l).id = id) ∧
    (∀ id s, getSegment w id = some s ↔ HasSegment w s ∧ (w.segment s).id = id) ∧
    (∀ id j, getJunction w id = some j ↔ j ∈ w.junctions ∧ (w.junction j).id = id) ∧
    (∀ id b, getBranchPoint w id = some b ↔ b ∈ w.branchPoints ∧ w.branchPointId b = id) := by
  have hI := invI_built h
  refine ⟨?_, hI.segmentMap, hI.junctionMap, hI.branchPointMap⟩
  intro id l
  unfold getLane
  rw [hI.laneMap]
  refine and_congr_left fun _ => exists_congr fun s => ?_
  rw [hI.cb]
  rfl

/-- Two objects of the same kind in the road geometry never have the same id. -/
theorem ids_unique {w : World} (h : Built w) :
    (∀ l m, HasLane w l → HasLane w m → (w.lane l).id = (w.lane m).id → l = m) ∧
    (∀ s t, HasSegment w s → HasSegment w t → (w.segment s).id = (w.segment t).id → s = t) ∧
    (∀ i j, i ∈ w.junctions → j ∈ w.junctions → (w.junction i).id = (w.junction j).id → i = j) ∧
    (∀ a b, a ∈ w.branchPoints → b ∈ w.branchPoints → w.branchPointId a = w.branchPointId b → a = b) := by
  obtain ⟨h1, h2, h3, h4⟩ := idIndex_faithful h
  refine ⟨?_, ?_, ?_, ?_⟩
  · intro a b ha hb e
    have := (h1 _ b).mpr ⟨hb, rfl⟩
    rw [← e, (h1 _ a).mpr ⟨ha, rfl⟩] at this
    exact Option.some.inj this
  · intro a b ha hb e
    have := (h2 _ b).mpr ⟨hb, rfl⟩
    rw [← e, (h2 _ a).mpr ⟨ha, rfl⟩] at this
    exact Option.some.inj this
  · intro a b ha hb e
    have := (h3 _ b).mpr ⟨hb, rfl⟩
    rw [← e, (h3 _ a).mpr ⟨ha, rfl⟩] at this
    exact Option.some.inj this
  · intro a b ha hb e
    have := (h4 _ b).mpr ⟨hb, rfl⟩
    rw [← e, (h4 _ a).mpr ⟨ha, rfl⟩] at this
    exact Option.some.inj this

/-- After any history of successful calls, the next call succeeds exactly if no two objects of the same kind end up with the same
id in the road geometry; otherwise it throws. -/
theorem rejected_iff_duplicate {w w' : World} {r : Except Err Unit} (h : Built w) (o : Op) (he : o.exec w = some (w', r)) :
    (r = .ok () ↔ UniqueIds w') ∧ (r ≠ .ok () → r = .error .throws) := by
  have hfwd : r = .ok () → UniqueIds w' := by
    rintro rfl
    obtain ⟨h1, h2, h3, h4⟩ := ids_unique (h.step o he)
    exact ⟨h1, h2, h3, h4⟩
  have hL := invL_reach h.reach
  have hI := invI_built h
  suffices hs : (r = .ok () ∨ r = .error .throws) ∧ (UniqueIds w' → r = .ok ()) from
    ⟨⟨hfwd, hs.2⟩, fun hn => hs.1.resolve_left hn⟩
  cases o with
  | newSegment id => simp only [Op.exec, Option.some.injEq, Prod.mk.injEq] at he; exact ⟨.inl he.2.symm, fun _ => he.2.symm⟩
  | newJunction id => simp only [Op.exec, Option.some.injEq, Prod.mk.injEq] at he; exact ⟨.inl he.2.symm, fun _ => he.2.symm⟩
  | addLane s id =>
    simp only [Op.exec] at he
    split at he
    · have := addLane_total hL hI s id
      rw [Option.some.inj he] at this
      exact this
    · cases he
  | addSegment j s =>
    simp only [Op.exec] at he
    split at he
    · rename_i hc
      have := addSegment_total hL hI j s hc.2.2
      rw [Option.some.inj he] at this
      exact this
    · cases he
  | addJunction j =>
    simp only [Op.exec] at he
    split at he
    · rename_i hc
      have := addJunction_total hL hI j (built_nodup h j) hc.2
      rw [Option.some.inj he] at this
      exact this
    · cases he
  | addBranchPoint id =>
    have := addBranchPoint_total hI id
    rw [Option.some.inj he] at this
    exact this

/-- A junction whose two segments have the same id, before it is added. -/
example : ∃ w, Built w ∧ ∃ w', (Op.addJunction 0).exec w = some (w', .error .throws) ∧ ¬ UniqueIds w' := by
  have h : (buildOps .init [.newSegment "s", .newSegment "s", .newJunction "j", .addSegment 0 0, .addSegment 0 1]).isSome := by
    decide
  have hb := built_buildOps .init _ (Option.some_get h).symm
  have he : ∃ w', (Op.addJunction 0).exec (Option.get _ h) = some (w', .error .throws) := ⟨_, by rfl⟩
  obtain ⟨w', he⟩ := he
  refine ⟨_, hb, w', he, fun hu => ?_⟩
  exact absurd ((rejected_iff_duplicate hb _ he).1.mpr hu) (by simp)

/-- Every added object is reachable from the road geometry and finds its way back up: a segment in the road
geometry is in one junction only and knows it. -/
theorem segment_junction {w : World} (h : Built w) (s i : Nat) (hs : s ∈ (w.junction i).segments) :
    (w.segment s).junction = some i ∧ ∀ j, s ∈ (w.junction j).segments → j = i :=
  ⟨((invI_built h).seg s i hs).1, fun _ hj => (invI_built h).seg_unique hj hs⟩

/-- A lane added before its segment is in a junction, one added after the junction is attached and one in
between are all found. -/
example : ∃ w, Built w ∧ getLane w "a" = some 0 ∧ getLane w "b" = some 1 ∧ getLane w "c" = some 2 ∧
    getLane w "d" = none ∧ getSegment w "s" = some 0 ∧ getJunction w "j" = some 0 ∧
    getBranchPoint w "p" = some 0 ∧ w.nSegments = 2 ∧ getSegment w "t" = none := by
  have h : (buildOps .init [.newSegment "s", .addLane 0 "a", .newJunction "j", .addSegment 0 0, .addLane 0 "b",
    .addJunction 0, .addLane 0 "c", .addBranchPoint "p", .newSegment "t", .addLane 1 "d"]).isSome := by decide
  refine ⟨_, built_buildOps .init _ (Option.some_get h).symm, ?_⟩
  decide +revert

/-- Witness that success of the calls matters: a second lane "a" is rejected by an exception, but stays in
its segment, while the index only knows the first one. -/
theorem rejected_addLane_not_indexed : ∃ w, Reach w ∧ HasLane w 0 ∧ HasLane w 1 ∧
    (w.lane 0).id = "a" ∧ (w.lane 1).id = "a" ∧ getLane w "a" = some 0 := by
  have h : (runOps .init [.newSegment "s", .newJunction "j", .addSegment 0 0, .addJunction 0, .addLane 0 "a",
    .addLane 0 "a"]).isSome := by decide
  refine ⟨_, reach_runOps .init _ (Option.some_get h).symm, ⟨0, ⟨0, ?_, ?_⟩, ?_⟩, ⟨0, ⟨0, ?_, ?_⟩, ?_⟩, ?_⟩ <;> decide +revert

end Maliput.Props
