import Mathlib.Tactic.Ring
import Verif.Spec.Route
import Verif.Lemmas.Router
import Verif.Lemmas.Strategy
import Verif.Props.Regions

set_option autoImplicit false

/-! Lemmas about routes. -/
namespace Maliput.Route
open Maliput.Router (RoadNet RoadPos Phase positionInRanges)
open Maliput.Strategy (Pos)
open Maliput.Spec Maliput.Route.Spec
open Maliput.RouteGraph (Stop lift)

/-! ### Places -/

theorem zipIdx_increasing {α : Type} (l : List α) (n : Nat) : (l.zipIdx n).Pairwise (fun a b => a.2 < b.2) := by
  induction l generalizing n with
  | nil => simp
  | cons x xs ih =>
    rw [List.zipIdx_cons, List.pairwise_cons]
    refine ⟨fun y hy => ?_, ih _⟩
    have := List.le_snd_of_mem_zipIdx hy
    omega

theorem mem_indexed {route : List Phase} {i : Index} {r : LaneSRange} :
    (i, r) ∈ indexed route ↔ ∃ j : Nat, i.range = j ∧ RangeAt route i.phase j r := by
  unfold indexed RangeAt
  simp only [List.mem_flatten, List.mem_map, Prod.exists, List.mem_zipIdx_iff_getElem?]
  constructor
  · rintro ⟨_, ⟨p, n, hp, rfl⟩, h⟩
    simp only [List.mem_map, Prod.exists, List.mem_zipIdx_iff_getElem?] at h
    obtain ⟨x, j, hx, h⟩ := h
    cases h
    exact ⟨j, rfl, p, hp, hx⟩
  · rintro ⟨j, hj, p, hp, hr⟩
    refine ⟨_, ⟨p, i.phase, hp, rfl⟩, ?_⟩
    simp only [List.mem_map, Prod.exists, List.mem_zipIdx_iff_getElem?]
    exact ⟨r, j, hr, by cases i; cases hj; rfl⟩

/-- Earlier in the order of the phases and ranges. -/
def Before (a b : Index) : Prop := a.phase < b.phase ∨ (a.phase = b.phase ∧ a.range < b.range)

theorem indexed_pairwise (route : List Phase) : (indexed route).Pairwise (fun a b => Before a.1 b.1) := by
  unfold indexed
  rw [List.pairwise_flatten]
  constructor
  · intro l hl
    simp only [List.mem_map] at hl
    obtain ⟨p, -, rfl⟩ := hl
    rw [List.pairwise_map]
    refine (zipIdx_increasing _ _).imp ?_
    intro a b h
    exact .inr ⟨rfl, by simpa using h⟩
  · rw [List.pairwise_map]
    refine (zipIdx_increasing _ _).imp ?_
    intro a b h x hx y hy
    simp only [List.mem_map] at hx hy
    obtain ⟨_, -, rfl⟩ := hx
    obtain ⟨_, -, rfl⟩ := hy
    exact .inl h

/-- What the loop over the candidate ranges returns. -/
theorem findContaining_spec {tol : ℚ} (ht : 0 ≤ tol) {r : LaneSRange} (hr : ValidRange r.sRange)
    {l : List (Index × LaneSRange)} (hl : ∀ x ∈ l, ValidRange x.2.sRange) :
    (findContaining tol r l = .ok none ∧ ∀ x ∈ l, ¬Holds tol x.2 r) ∨
      ∃ l1 i x l2, l = l1 ++ (i, x) :: l2 ∧ findContaining tol r l = .ok (some i) ∧ Holds tol x r ∧
        ∀ y ∈ l1, ¬Holds tol y.2 r := by
  induction l with
  | nil => exact .inl ⟨rfl, by simp⟩
  | cons a l ih =>
    obtain ⟨i, x⟩ := a
    obtain ⟨b, hb, hb'⟩ := Props.laneSRange_contains_iff x r (hl (i, x) (by simp)) hr tol ht
    cases b with
    | true =>
      refine .inr ⟨[], i, x, l, rfl, ?_, hb'.1 rfl, by simp⟩
      simp [findContaining, hb, bind, Except.bind, pure, Except.pure]
    | false =>
      have hn : ¬Holds tol x r := fun h => by have := hb'.2 h; cases this
      have e : findContaining tol r ((i, x) :: l) = findContaining tol r l := by
        simp [findContaining, hb, bind, Except.bind]
      rcases ih (fun y hy => hl y (by simp [hy])) with ⟨h1, h2⟩ | ⟨l1, i', x', l2, rfl, h2, h3, h4⟩
      · refine .inl ⟨e.trans h1, ?_⟩
        rintro y hy
        rcases List.mem_cons.1 hy with rfl | hy
        · exact hn
        · exact h2 y hy
      · refine .inr ⟨(i, x) :: l1, i', x', l2, rfl, e.trans h2, h3, ?_⟩
        rintro y hy
        rcases List.mem_cons.1 hy with rfl | hy
        · exact hn
        · exact h4 y hy

/-- All ranges of the route are valid and on known lanes. -/
def ValidRanges (net : RoadNet) (route : List Phase) : Prop :=
  ∀ i j r, RangeAt route i j r → ValidRange r.sRange ∧ ∃ l, net.byId r.laneId = some l

theorem builtPhase_ranges {net : RoadNet} {p : Phase} (h : BuiltPhase net p) {r : LaneSRange} (hr : r ∈ p.ranges) :
    ValidRange r.sRange ∧ ∃ l, net.byId r.laneId = some l := by
  obtain ⟨_, _, _, _, _, h⟩ := h
  obtain ⟨rfl, ht, -, h, -⟩ := Router.phaseMake_ok h
  obtain ⟨l, hl, a, b, -⟩ := Router.rangeInNetwork_ok ht (h r hr)
  exact ⟨⟨a, b⟩, l, hl⟩

theorem built_valid {net : RoadNet} {route : List Phase} (h : Built net route) : ValidRanges net route := by
  rintro i j r ⟨p, hp, hr⟩
  exact builtPhase_ranges (h.2 p (List.mem_of_getElem? hp)) (List.mem_of_getElem? hr)

theorem findIndex_spec {net : RoadNet} {tol : ℚ} (ht : 0 ≤ tol) {route : List Phase} (hv : ValidRanges net route)
    {r : LaneSRange} (hr : ValidRange r.sRange) :
    (findIndex tol route r = .ok none ∧ ¬PartOf tol route r) ∨
      ∃ (i j : Nat) (x : LaneSRange), findIndex tol route r = .ok (some ⟨i, j⟩) ∧ FirstPlace tol route r i j x := by
  unfold findIndex
  have hl : ∀ x ∈ (indexed route).filter (fun x => decide (x.2.laneId = r.laneId)), ValidRange x.2.sRange := by
    intro x hx
    obtain ⟨j, -, h⟩ := mem_indexed.1 (List.mem_filter.1 hx).1
    exact (hv _ _ _ h).1
  rcases findContaining_spec ht hr hl with ⟨h1, h2⟩ | ⟨l1, i, x, l2, hl', h2, h3, h4⟩
  · refine .inl ⟨h1, ?_⟩
    rintro ⟨i, j, x, hx, hh⟩
    exact h2 (⟨i, j⟩, x) (List.mem_filter.2 ⟨mem_indexed.2 ⟨j, rfl, hx⟩, by simpa using hh.1⟩) hh
  · have hm : (i, x) ∈ (indexed route).filter (fun x => decide (x.2.laneId = r.laneId)) := by rw [hl']; simp
    obtain ⟨j, hj, hat⟩ := mem_indexed.1 (List.mem_filter.1 hm).1
    refine .inr ⟨i.phase, j, x, ?_, hat, h3, ?_⟩
    · rw [h2]; cases i; cases hj; rfl
    · intro i' j' y hy hh
      have hm' : ((⟨i', j'⟩ : Index), y) ∈ (indexed route).filter (fun x => decide (x.2.laneId = r.laneId)) :=
        List.mem_filter.2 ⟨mem_indexed.2 ⟨j', rfl, hy⟩, by simpa using hh.1⟩
      have hp := (indexed_pairwise route).filter (fun x => decide (x.2.laneId = r.laneId))
      rw [hl'] at hm' hp
      rcases List.mem_append.1 hm' with hm' | hm'
      · exact absurd hh (h4 _ hm')
      · rcases List.mem_cons.1 hm' with hm' | hm'
        · cases hm'
          have : j = j' := by simpa using hj.symm
          exact .inr ⟨rfl, this.le⟩
        · have hb := (List.pairwise_cons.1 (List.pairwise_append.1 hp).2.1).1 _ hm'
          rcases hb with hb | ⟨hb, hb'⟩
          · exact .inl hb
          · refine .inr ⟨hb, ?_⟩
            rw [hj] at hb'
            have hb' : (j : ℤ) < j' := hb'
            exact_mod_cast hb'.le

theorem firstPlace_unique {tol : ℚ} {route : List Phase} {r : LaneSRange} {i j i' j' : Nat} {x x' : LaneSRange}
    (h : FirstPlace tol route r i j x) (h' : FirstPlace tol route r i' j' x') : i = i' ∧ j = j' ∧ x = x' := by
  have a := h.first _ _ _ h'.there h'.holds
  have b := h'.first _ _ _ h.there h.holds
  have hi : i = i' := by omega
  have hj : j = j' := by omega
  subst hi hj
  obtain ⟨p, hp, hx⟩ := h.there
  obtain ⟨p', hp', hx'⟩ := h'.there
  rw [hp] at hp'
  cases hp'
  rw [hx] at hx'
  cases hx'
  exact ⟨rfl, rfl, rfl⟩

theorem findIndex_some {net : RoadNet} {tol : ℚ} (ht : 0 ≤ tol) {route : List Phase} (hv : ValidRanges net route)
    {r : LaneSRange} (hr : ValidRange r.sRange) {i : Index} (h : findIndex tol route r = .ok (some i)) :
    ∃ (j : Nat) (x : LaneSRange), i = ⟨i.phase, j⟩ ∧ FirstPlace tol route r i.phase j x := by
  rcases findIndex_spec ht hv hr with ⟨h1, -⟩ | ⟨i', j, x, h1, h2⟩
  · rw [h1] at h; cases h
  · rw [h1] at h; cases h; exact ⟨j, x, rfl, h2⟩

theorem getRange_ok {route : List Phase} {i : Index} {r : LaneSRange} :
    getRange route i = .ok r ↔ ∃ j : Nat, i.range = j ∧ RangeAt route i.phase j r := by
  unfold getRange RangeAt
  constructor
  · intro h
    split at h
    · cases h
    · rename_i p hp
      split at h
      · cases h
      · rename_i hz
        split at h
        · cases h
        · rename_i x hx
          cases h
          exact ⟨i.range.toNat, by omega, p, hp, hx⟩
  · rintro ⟨j, hj, p, hp, hr⟩
    rw [hp, hj]
    simp [hr]

theorem rangeAt_getRange {route : List Phase} {i j : Nat} {r : LaneSRange} (h : RangeAt route i j r) :
    getRange route ⟨i, j⟩ = .ok r := getRange_ok.2 ⟨j, rfl, h⟩

/-! ### Relations -/

theorem relativePosition_center {geo : Geo} {a b : RoadPos} :
    relativePosition geo a b = .center ↔ Near geo.tol (geo.toInertial a) (geo.toInertial b) := by
  unfold relativePosition Near dot
  dsimp only
  simp only [pow_two]
  split
  · simpa
  · rename_i h
    split <;> simpa only [reduceCtorEq, false_iff] using h

theorem relativePosition_left {geo : Geo} {a b : RoadPos} :
    relativePosition geo a b = .left ↔
      ¬Near geo.tol (geo.toInertial a) (geo.toInertial b) ∧ OnTheLeft geo a b := by
  have hc := relativePosition_center (geo := geo) (a := a) (b := b)
  have e : dot (cross (geo.sHat a) (fun k => geo.toInertial b k - geo.toInertial a k)) (geo.hHat a) > 0 ↔
      OnTheLeft geo a b := by
    unfold dot cross OnTheLeft
    simp
  rw [← hc]
  unfold relativePosition
  dsimp only
  split
  · simp
  · rw [← e]
    split <;> simp_all

theorem relativePosition_right {geo : Geo} {a b : RoadPos} :
    relativePosition geo a b = .right ↔
      ¬Near geo.tol (geo.toInertial a) (geo.toInertial b) ∧ ¬OnTheLeft geo a b := by
  have hc := relativePosition_center (geo := geo) (a := a) (b := b)
  have hl := relativePosition_left (geo := geo) (a := a) (b := b)
  cases h : relativePosition geo a b <;> simp_all

theorem endOfRange_eq {net : RoadNet} {route : List Phase} {i j : Nat} {x : LaneSRange} (h : RangeAt route i j x)
    {l : Nat} (hl : net.byId x.laneId = some l) (b : Bool) :
    endOfRange net route ⟨i, j⟩ b = .ok ⟨l, if b then x.sRange.s0 else x.sRange.s1, 0, 0⟩ := by
  unfold endOfRange
  rw [rangeAt_getRange h]
  simp [hl]

/-- The relation found for two places is the expected one. -/
theorem relationAt_spec {net : RoadNet} {geo : Geo} {route : List Phase} (hv : ValidRanges net route)
    {i j k l : Nat} {x y : LaneSRange} (hx : RangeAt route i j x) (hy : RangeAt route k l y) :
    ∃ rel, relationAt net geo route ⟨i, j⟩ ⟨k, l⟩ = .ok rel ∧
      ∀ rel', RelatedBy net geo i j x k l y rel' ↔ rel' = rel := by
  obtain ⟨m, hm⟩ := (hv _ _ _ hx).2
  obtain ⟨n, hn⟩ := (hv _ _ _ hy).2
  have fp : ∀ q, FirstPoint net x q ↔ q = ⟨m, x.sRange.s0, 0, 0⟩ := by
    intro q; simp [FirstPoint, hm]
  have lp : ∀ q, LastPoint net x q ↔ q = ⟨m, x.sRange.s1, 0, 0⟩ := by
    intro q; simp [LastPoint, hm]
  have fp' : ∀ q, FirstPoint net y q ↔ q = ⟨n, y.sRange.s0, 0, 0⟩ := by
    intro q; simp [FirstPoint, hn]
  have lp' : ∀ q, LastPoint net y q ↔ q = ⟨n, y.sRange.s1, 0, 0⟩ := by
    intro q; simp [LastPoint, hn]
  unfold relationAt
  dsimp only
  simp only [Int.toNat_natCast]
  by_cases h1 : i > k + 1 ∨ k > i + 1
  · rw [if_pos h1]
    refine ⟨_, rfl, fun rel' => ?_⟩
    cases rel' <;> simp only [RelatedBy, reduceCtorEq, iff_false, iff_true]
    all_goals omega
  · rw [if_neg h1]
    by_cases h2 : i = k
    · rw [if_pos h2]
      subst h2
      have wp : j < l + 1 → (j = wrapPred l ↔ l = j + 1) := by
        intro h; unfold wrapPred; split <;> omega
      by_cases h3 : j = l
      · rw [if_pos h3]
        refine ⟨_, rfl, fun rel' => ?_⟩
        cases rel' <;> simp only [RelatedBy, reduceCtorEq, iff_false, iff_true]
        all_goals first | omega | exact ⟨trivial, by omega⟩
      · rw [if_neg h3]
        by_cases h4 : j = l + 1
        · rw [if_pos h4]
          refine ⟨_, rfl, fun rel' => ?_⟩
          cases rel' <;> simp only [RelatedBy, reduceCtorEq, iff_false, iff_true]
          all_goals first | omega | exact ⟨trivial, by omega⟩
        · rw [if_neg h4]
          by_cases h5 : j > l + 1
          · rw [if_pos h5]
            refine ⟨_, rfl, fun rel' => ?_⟩
            cases rel' <;> simp only [RelatedBy, reduceCtorEq, iff_false, iff_true]
            all_goals first | omega | exact ⟨trivial, by omega⟩
          · rw [if_neg h5]
            have wp := wp (by omega)
            by_cases h6 : j = wrapPred l
            · rw [if_pos h6]
              have := wp.1 h6
              refine ⟨_, rfl, fun rel' => ?_⟩
              cases rel' <;> simp only [RelatedBy, reduceCtorEq, iff_false, iff_true]
              all_goals first | omega | exact ⟨trivial, by omega⟩
            · rw [if_neg h6]
              have h7 : ¬l = j + 1 := fun h => h6 (wp.2 h)
              refine ⟨_, rfl, fun rel' => ?_⟩
              cases rel' <;> simp only [RelatedBy, reduceCtorEq, iff_false, iff_true]
              all_goals first | omega | exact ⟨trivial, by omega⟩
    · rw [if_neg h2]
      have wp : i = wrapPred k ↔ k = i + 1 := by unfold wrapPred; split <;> omega
      by_cases h3 : i = wrapPred k
      · rw [if_pos h3]
        have h4 := wp.1 h3
        rw [endOfRange_eq hx hm, endOfRange_eq hy hn]
        refine ⟨_, rfl, fun rel' => ?_⟩
        have c := relativePosition_center (geo := geo) (a := ⟨m, x.sRange.s1, 0, 0⟩) (b := ⟨n, y.sRange.s0, 0, 0⟩)
        have le := relativePosition_left (geo := geo) (a := ⟨m, x.sRange.s1, 0, 0⟩) (b := ⟨n, y.sRange.s0, 0, 0⟩)
        have ri := relativePosition_right (geo := geo) (a := ⟨m, x.sRange.s1, 0, 0⟩) (b := ⟨n, y.sRange.s0, 0, 0⟩)
        simp only [Bool.false_eq_true, if_false, if_true]
        generalize relativePosition geo ⟨m, x.sRange.s1, 0, 0⟩ ⟨n, y.sRange.s0, 0, 0⟩ = rp at c le ri
        cases rel' <;> simp only [RelatedBy, fp, lp, fp', lp', exists_and_left, exists_eq_left]
        all_goals first | rw [← le] | rw [← ri] | rw [← c] | skip
        all_goals cases rp <;> simp only [succeeding, reduceCtorEq, iff_false, iff_true, and_false, and_true] <;> omega
      · rw [if_neg h3]
        have h4 : ¬k = i + 1 := fun h => h3 (wp.2 h)
        rw [endOfRange_eq hx hm, endOfRange_eq hy hn]
        refine ⟨_, rfl, fun rel' => ?_⟩
        have c := relativePosition_center (geo := geo) (a := ⟨m, x.sRange.s0, 0, 0⟩) (b := ⟨n, y.sRange.s1, 0, 0⟩)
        have le := relativePosition_left (geo := geo) (a := ⟨m, x.sRange.s0, 0, 0⟩) (b := ⟨n, y.sRange.s1, 0, 0⟩)
        have ri := relativePosition_right (geo := geo) (a := ⟨m, x.sRange.s0, 0, 0⟩) (b := ⟨n, y.sRange.s1, 0, 0⟩)
        simp only [Bool.false_eq_true, if_false, if_true]
        generalize relativePosition geo ⟨m, x.sRange.s0, 0, 0⟩ ⟨n, y.sRange.s1, 0, 0⟩ = rp at c le ri
        cases rel' <;> simp only [RelatedBy, fp, lp, fp', lp', exists_and_left, exists_eq_left]
        all_goals first | rw [← le] | rw [← ri] | rw [← c] | skip
        all_goals cases rp <;> simp only [preceding, reduceCtorEq, iff_false, iff_true, and_false, and_true] <;> omega

end Maliput.Route
