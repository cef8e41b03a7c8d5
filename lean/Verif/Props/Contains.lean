import Verif.Props.GeometryBase
import Verif.Spec.Contains
import Mathlib.Tactic.Linarith

set_option autoImplicit false

/-! C123: containment. -/
namespace Maliput.Props

open Maliput.Contains Maliput.Contains.Spec
open Maliput.RoadMesh (RBounds HBounds Srh)

private theorem within_iff {x min max tol : ℚ} (h : min ≤ max) (ht : 0 ≤ tol) :
    isWithinRange x min max tol = true ↔ ∃ y, (min ≤ y ∧ y ≤ max) ∧ |x - y| ≤ tol := by
  simp only [isWithinRange, Bool.and_eq_true, decide_eq_true_eq, abs_le]
  constructor
  · rintro ⟨h1, h2⟩
    rcases le_total x min with hm | hm
    · exact ⟨min, ⟨le_refl _, h⟩, by linarith, by linarith⟩
    · rcases le_total x max with hM | hM
      · exact ⟨x, ⟨hm, hM⟩, by linarith, by linarith⟩
      · exact ⟨max, ⟨h, le_refl _⟩, by linarith, by linarith⟩
  · rintro ⟨y, ⟨h1, h2⟩, h3, h4⟩
    exact ⟨by linarith, by linarith⟩

/-- C123: a lane contains a position exactly if some position in the volume of the lane differs from it by at most the linear
tolerance in every coordinate, when the lane answers what it is asked. -/
theorem lane_contains (l : Lane) (p : Srh) {r : RBounds} {h : HBounds} {tol : ℚ} (hl : 0 ≤ l.length) (ht : 0 ≤ tol)
    (hr : l.segmentBounds p.s = .ok r) (hh : l.elevationBounds p.s p.r = .ok h) (htol : l.tolerance = .ok tol) :
    ∃ b, l.contains p = .ok b ∧ (b = true ↔ ∃ q, InVolume l.length r h q ∧ Near tol p q) := by
  refine ⟨_, by simp only [Lane.contains, hr, hh, htol]; rfl, ?_⟩
  rw [Bool.and_eq_true, Bool.and_eq_true, within_iff hl ht, within_iff (r.min_le.trans r.le_max) ht,
    within_iff (h.min_le.trans h.le_max) ht]
  constructor
  · rintro ⟨⟨⟨a, ha, ha'⟩, b, hb, hb'⟩, c, hc, hc'⟩
    exact ⟨⟨a, b, c⟩, ⟨ha, hb, hc⟩, ha', hb', hc'⟩
  · rintro ⟨q, ⟨ha, hb, hc⟩, ha', hb', hc'⟩
    exact ⟨⟨⟨_, ha, ha'⟩, _, hb, hb'⟩, _, hc, hc'⟩

/-- Every position in the volume of the lane is contained, and with a greater tolerance no position is lost. -/
theorem lane_contains_volume (l : Lane) (p : Srh) {r : RBounds} {h : HBounds} {tol : ℚ} (hl : 0 ≤ l.length) (ht : 0 ≤ tol)
    (hr : l.segmentBounds p.s = .ok r) (hh : l.elevationBounds p.s p.r = .ok h) (htol : l.tolerance = .ok tol) :
    (InVolume l.length r h p → l.contains p = .ok true) ∧
    (l.contains p = .ok true → ∀ tol', tol ≤ tol' → ({ l with tolerance := .ok tol' } : Lane).contains p = .ok true) := by
  obtain ⟨b, hb, hiff⟩ := lane_contains l p hl ht hr hh htol
  constructor
  · intro hv
    rw [hb, hiff.mpr ⟨p, hv, by simp [ht], by simp [ht], by simp [ht]⟩]
  · intro hc tol' htt
    rw [hb] at hc
    obtain ⟨q, hq, h1, h2, h3⟩ := hiff.mp (by injection hc)
    obtain ⟨b', hb', hiff'⟩ := lane_contains { l with tolerance := .ok tol' } p hl (ht.trans htt) hr hh rfl
    rw [hb', hiff'.mpr ⟨q, hq, h1.trans htt, h2.trans htt, h3.trans htt⟩]

/-- If the backend throws for the bounds at the position, then so does `Contains`, wherever the position is. -/
theorem lane_contains_throws (l : Lane) (p : Srh) (e : Err) :
    (l.segmentBounds p.s = .error e → l.contains p = .error e) ∧
    (∀ r, l.segmentBounds p.s = .ok r → l.elevationBounds p.s p.r = .error e → l.contains p = .error e) := by
  constructor
  · intro h
    simp only [Lane.contains, h]; rfl
  · intro r hr h
    simp only [Lane.contains, hr, h]; rfl

/-- A road network contains the id of a lane exactly if its road geometry has a lane with that id. -/
theorem network_contains_lane (n : Network) (h : Build.Built n.world) (id : String) :
    n.containsLane id = true ↔ ∃ l, HasLaneAt n l ∧ (n.world.lane l).id = id := by
  unfold Network.containsLane
  rw [Option.isSome_iff_exists]
  exact exists_congr fun l => (idIndex_faithful h).1 id l

/-- For a road position on a lane of the network that answers, the network contains it exactly if it is within the tolerance of
the volume of the lane; a null lane is undefined behaviour.  Missing: positions on lanes of another network
(`network_contains_foreign`). -/
theorem network_contains_position_partial (n : Network) (pos : Srh) :
    (∀ l r h tol, HasLaneAt n l → 0 ≤ (n.lane l).length → 0 ≤ tol → (n.lane l).segmentBounds pos.s = .ok r →
      (n.lane l).elevationBounds pos.s pos.r = .ok h → (n.lane l).tolerance = .ok tol →
      ∃ b, n.containsPosition ⟨some (n.lane l), pos⟩ = .ok b ∧
        (b = true ↔ ∃ q, InVolume (n.lane l).length r h q ∧ Near tol pos q)) ∧
    n.containsPosition ⟨none, pos⟩ = .error .ub :=
  ⟨fun l _ _ _ _ hl ht hr hh htol => lane_contains (n.lane l) pos hl ht hr hh htol, rfl⟩

/-- A lane ten metres long. -/
def tenMetres : Lane where
  length := 10
  segmentBounds s := if s < -1 then .error .throws else .ok ⟨-2, 2, by norm_num, by norm_num⟩
  elevationBounds _ _ := .ok ⟨0, 5, by norm_num, by norm_num⟩
  tolerance := .ok (1 / 100)

/-- A network with an empty road geometry. -/
def emptyNetwork : Network := ⟨.init, fun _ => tenMetres⟩

example : tenMetres.contains ⟨5, 2, 0⟩ = .ok true ∧ tenMetres.contains ⟨-1 / 100, 2, 0⟩ = .ok true ∧
    tenMetres.contains ⟨5, 201 / 100, 501 / 100⟩ = .ok true ∧ tenMetres.contains ⟨5, 202 / 100, 0⟩ = .ok false ∧
    tenMetres.contains ⟨5, 0, -2 / 100⟩ = .ok false ∧ tenMetres.contains ⟨10, 0, 502 / 100⟩ = .ok false ∧
    tenMetres.contains ⟨11, 0, 0⟩ = .ok false ∧ tenMetres.contains ⟨-1, 0, 0⟩ = .ok false ∧
    tenMetres.contains ⟨-2, 0, 0⟩ = .error .throws := by decide +kernel

example : ∃ n : Network, Build.Built n.world ∧ HasLaneAt n 0 ∧ HasLaneAt n 1 ∧ n.containsLane "a" = true ∧
    n.containsLane "b" = true ∧ n.containsLane "c" = false ∧
    n.containsPosition ⟨some (n.lane 1), ⟨5, 2, 0⟩⟩ = .ok true := by
  have h : (buildOps .init [.newSegment "s", .addLane 0 "a", .newJunction "j", .addSegment 0 0, .addLane 0 "b",
    .addJunction 0, .newSegment "t", .addLane 1 "c"]).isSome := by decide
  refine ⟨⟨_, fun _ => tenMetres⟩, built_buildOps .init _ (Option.some_get h).symm, ⟨0, ⟨0, ?_, ?_⟩, ?_⟩, ⟨0, ⟨0, ?_, ?_⟩, ?_⟩,
    ?_⟩ <;> decide +revert +kernel

/-- A network says it contains a position on a lane that no part of its road geometry knows: here the road geometry is empty. -/
theorem network_contains_foreign :
    Build.Built emptyNetwork.world ∧ (∀ l, ¬ HasLaneAt emptyNetwork l) ∧
    (∀ id, emptyNetwork.containsLane id = false) ∧
    emptyNetwork.containsPosition ⟨some tenMetres, ⟨5, 0, 0⟩⟩ = .ok true := by
  refine ⟨.init, ?_, fun _ => rfl, by decide +kernel⟩
  rintro l ⟨s, ⟨j, hj, _⟩, _⟩
  exact absurd hj (by simp [emptyNetwork, Build.World.init])

/-- A road network is made exactly from parts that are all there; the right of way provider matters only to the deprecated
constructor. -/
theorem network_constructed (p : Parts) :
    (construct p = .ok () ↔ p.roadGeometry ∧ p.rulebook ∧ p.trafficLightBook ∧ p.intersectionBook ∧ p.phaseRingBook ∧
      p.phaseProvider ∧ p.ruleRegistry ∧ p.discreteValueRuleStateProvider ∧ p.rangeValueRuleStateProvider) ∧
    (construct p ≠ .ok () → construct p = .error .throws) ∧
    (constructDeprecated p = .ok () ↔ construct p = .ok () ∧ p.rightOfWayRuleStateProvider = true) ∧
    (constructDeprecated p ≠ .ok () → constructDeprecated p = .error .throws) := by
  obtain ⟨a, b, c, d, e, f, g, h, i, j⟩ := p
  revert a b c d e f g h i j
  decide +kernel

end Maliput.Props
