import Verif.Lemmas.Monad
import Verif.Props.Strategy
import Verif.Lemmas.DoubleOrder
import Verif.Spec.BackendFrame

set_option autoImplicit false

/-! C134: the Inertial Frame and the frame of the backend. -/
namespace Maliput.Props
open Maliput Maliput.Frame Maliput.Spec Maliput.Dbl.Spec

/-- C134: a lane position is at `x` in the Inertial Frame exactly when the backend puts it at `x` minus the translation. -/
theorem inertial_position_iff (l : Frame.Lane ℚ) (f : Vec ℚ → Except Err (Vec ℚ)) (hf : l.backendPosition = some f) (p x : Vec ℚ) :
    l.toInertialPosition rationals p = .ok x ↔ f p = .ok (fun i => x i - l.translation i) := by
  unfold Lane.toInertialPosition Lane.doToBackendPosition
  rw [hf]
  dsimp only
  cases h : f p with
  | error e => simp [bind, Except.bind]
  | ok y =>
    simp only [bind, Except.bind, pure, Except.pure, Except.ok.injEq]
    constructor
    · rintro rfl
      funext i
      simp [Arith.vadd, rationals]
    · rintro rfl
      funext i
      simp [Arith.vadd, rationals]

/-- C134: `ToLanePosition` answers what the backend answers at the translated point, with the nearest position translated back. -/
theorem lane_position_iff (l : Frame.Lane ℚ) (f : Vec ℚ → PositionResult ℚ → Except Err (PositionResult ℚ))
    (hf : l.lanePositionBackend = some f) (x : Vec ℚ) (r : PositionResult ℚ) :
    l.toLanePosition rationals x = .ok r ↔
      f (fun i => x i - l.translation i) ⟨0, 0, 0⟩ =
        .ok ⟨r.lanePosition, fun i => r.nearestPosition i - l.translation i, r.distance⟩ := by
  unfold Lane.toLanePosition useTranslation Lane.doToLanePositionBackend
  rw [hf]
  change (do let out ← f (fun i => x i - l.translation i) ⟨0, 0, 0⟩; _) = _ ↔ _
  cases h : f (fun i => x i - l.translation i) ⟨0, 0, 0⟩ with
  | error e => simp [bind, Except.bind]
  | ok y =>
    simp only [bind, Except.bind, pure, Except.pure, Except.ok.injEq]
    constructor
    · rintro rfl
      simp [Arith.vadd, rationals]
    · rintro rfl
      have e : (rationals.vadd (fun i => r.nearestPosition i - l.translation i) l.translation) = r.nearestPosition := by
        funext i
        simp [Arith.vadd, rationals]
      dsimp only
      rw [e]

/-- C134: the same for `ToSegmentPosition`. -/
theorem segment_position_iff (l : Frame.Lane ℚ) (f : Vec ℚ → PositionResult ℚ → Except Err (PositionResult ℚ))
    (hf : l.segmentPositionBackend = some f) (x : Vec ℚ) (r : PositionResult ℚ) :
    l.toSegmentPosition rationals x = .ok r ↔
      f (fun i => x i - l.translation i) ⟨0, 0, 0⟩ =
        .ok ⟨r.lanePosition, fun i => r.nearestPosition i - l.translation i, r.distance⟩ := by
  have := lane_position_iff { l with lanePositionBackend := some f } f rfl x r
  unfold Lane.toSegmentPosition useTranslation Lane.doToSegmentPositionBackend
  rw [hf]
  exact this

/-- C134: a lane whose backend overrides none of the functions throws, in any numbers. -/
theorem unimplemented_throws {N : Type} (a : Arith N) (l : Frame.Lane N) (p : Vec N) :
    (l.backendPosition = none → l.toInertialPosition a p = .error .throws) ∧
    (l.lanePositionBackend = none → l.toLanePosition a p = .error .throws) ∧
    (l.segmentPositionBackend = none → l.toSegmentPosition a p = .error .throws) := by
  refine ⟨fun h => ?_, fun h => ?_, fun h => ?_⟩
  · unfold Lane.toInertialPosition Lane.doToBackendPosition
    rw [h]
    rfl
  · unfold Lane.toLanePosition useTranslation Lane.doToLanePositionBackend
    rw [h]
    rfl
  · unfold Lane.toSegmentPosition useTranslation Lane.doToSegmentPositionBackend
    rw [h]
    rfl

/-- C134: if the backend finds its own positions again, so does the lane: `ToLanePosition(ToInertialPosition(p))` is `p`, at
distance zero. -/
theorem lane_position_round_trip (l : Frame.Lane ℚ) (f : Vec ℚ → Except Err (Vec ℚ))
    (g : Vec ℚ → PositionResult ℚ → Except Err (PositionResult ℚ)) (hf : l.backendPosition = some f)
    (hg : l.lanePositionBackend = some g) (p y : Vec ℚ) (hp : f p = .ok y) (hy : ∀ out, g y out = .ok ⟨p, y, 0⟩) :
    ∃ x, l.toInertialPosition rationals p = .ok x ∧ l.toLanePosition rationals x = .ok ⟨p, x, 0⟩ := by
  refine ⟨fun i => y i + l.translation i, (inertial_position_iff l f hf p _).mpr ?_, (lane_position_iff l g hg _ _).mpr ?_⟩
  · rw [hp]
    simp
  · have : (fun i => y i + l.translation i - l.translation i) = y := by
      funext i
      simp
    simp only [this]
    exact hy _

/-- C134: if the backend answers with the nearest of its positions of the lane then `ToLanePosition` answers with the nearest of
the positions that `ToInertialPosition` gives, and the other way round. -/
theorem nearest_answer_iff (l : Frame.Lane ℚ) (f : Vec ℚ → Except Err (Vec ℚ))
    (g : Vec ℚ → PositionResult ℚ → Except Err (PositionResult ℚ)) (hf : l.backendPosition = some f)
    (hg : l.lanePositionBackend = some g) (valid : Vec ℚ → Prop) (distance : Vec ℚ → Vec ℚ → ℚ)
    (hd : ∀ u v t : Vec ℚ, distance (fun i => u i + t i) (fun i => v i + t i) = distance u v) (x : Vec ℚ) :
    (∃ r, l.toLanePosition rationals x = .ok r ∧
      NearestPosition distance (fun p y => valid p ∧ l.toInertialPosition rationals p = .ok y) x r) ↔
    (∃ r, g (fun i => x i - l.translation i) ⟨0, 0, 0⟩ = .ok r ∧
      NearestPosition distance (fun p y => valid p ∧ f p = .ok y) (fun i => x i - l.translation i) r) := by
  have hd' : ∀ u v t : Vec ℚ, distance (fun i => u i - t i) (fun i => v i - t i) = distance u v := fun u v t => by
    have := hd (fun i => u i - t i) (fun i => v i - t i) t
    simpa using this.symm
  constructor
  · rintro ⟨r, h1, h2⟩
    refine ⟨_, (lane_position_iff l g hg x r).mp h1, ⟨h2.on.1, (inertial_position_iff l f hf _ _).mp h2.on.2⟩, ?_, ?_⟩
    · dsimp only
      rw [h2.distance_eq, hd']
    · rintro p y ⟨hp, hy⟩
      have := h2.least p (fun i => y i + l.translation i) ⟨hp, (inertial_position_iff l f hf _ _).mpr (by simpa using hy)⟩
      dsimp only
      refine this.trans (le_of_eq ?_)
      rw [← hd' x _ l.translation]
      simp
  · rintro ⟨r, h1, h2⟩
    refine ⟨⟨r.lanePosition, fun i => r.nearestPosition i + l.translation i, r.distance⟩,
      (lane_position_iff l g hg x _).mpr (by simpa using h1),
      ⟨h2.on.1, (inertial_position_iff l f hf _ _).mpr (by simpa using h2.on.2)⟩, ?_, ?_⟩
    · dsimp only
      rw [h2.distance_eq, ← hd' x _ l.translation]
      simp
    · rintro p y ⟨hp, hy⟩
      have := h2.least p _ ⟨hp, (inertial_position_iff l f hf _ _).mp hy⟩
      dsimp only
      rwa [hd'] at this

/-! ### The queries of a road geometry -/

variable {L : Type}

/-- A lane of the road geometry says what its backend says, moved. -/
theorem geometryOf_resultOn (t : Vec ℚ) (b : Strategy.Geometry L) (x : Vec ℚ) (l : L) :
    (geometryOf t b).resultOn x l = movedBy t (b.resultOn (fun i => x i - t i) l) := rfl

theorem geometryOf_isCloser (t : Vec ℚ) (b : Strategy.Geometry L) (r s : Strategy.RoadPositionResult L) :
    Strategy.isCloser (geometryOf t b) (movedBy t r) (movedBy t s) = Strategy.isCloser b r s := rfl

theorem geometryOf_pick (t : Vec ℚ) (b : Strategy.Geometry L) (rs : List (Strategy.RoadPositionResult L)) :
    ∀ r, Strategy.pickClosest (geometryOf t b) (rs.map (movedBy t)) (movedBy t r) = movedBy t (Strategy.pickClosest b rs r) := by
  unfold Strategy.pickClosest
  induction rs with
  | nil => exact fun _ => rfl
  | cons a rest ih =>
    intro r
    rw [List.map_cons, List.foldl_cons, List.foldl_cons, geometryOf_isCloser]
    split
    · exact ih a
    · exact ih r

/-- C134: `FindRoadPositions` does not depend on where the frame is: its results are those at the translated point of a road
geometry without translation, moved. -/
theorem find_positions_moved (t : Vec ℚ) (b : Strategy.Geometry L) (x : Vec ℚ) (radius : WithTop ℚ) :
    Strategy.findRoadPositions (geometryOf t b) x radius =
      (Strategy.findRoadPositions b (fun i => x i - t i) radius).map (List.map (movedBy t)) := by
  by_cases h : ((0 : ℚ) : WithTop ℚ) ≤ radius
  · rw [Strategy.findRoadPositions_eq _ _ _ h, Strategy.findRoadPositions_eq _ _ _ h]
    simp only [Except.map, List.map_map]
    rfl
  · unfold Strategy.findRoadPositions
    rw [decide_eq_false h]
    rfl

/-- C134: nor does `ToRoadPosition`, with or without a hint. -/
theorem to_position_moved (t : Vec ℚ) (b : Strategy.Geometry L) (x : Vec ℚ) (hint : Option (Option L)) :
    Strategy.toRoadPosition (geometryOf t b) x hint =
      (Strategy.toRoadPosition b (fun i => x i - t i) hint).map (movedBy t) := by
  match hint with
  | some none => rfl
  | some (some l) => rfl
  | none =>
    unfold Strategy.toRoadPosition
    dsimp only
    rw [find_positions_moved]
    cases Strategy.findRoadPositions b (fun i => x i - t i) ⊤ with
    | error e => rfl
    | ok rs =>
      simp only [Except.map, bind, Except.bind, List.isEmpty_map]
      cases hrs : rs.isEmpty with
      | true => rfl
      | false =>
        have hf : ∀ rs : List (Strategy.RoadPositionResult L),
            Strategy.filterRoadPositionResults (rs.map (movedBy t)) (fun r => decide (r.distance ≤ (geometryOf t b).linearTolerance)) =
            (Strategy.filterRoadPositionResults rs (fun r => decide (r.distance ≤ b.linearTolerance))).map (movedBy t) := by
          intro rs
          unfold Strategy.filterRoadPositionResults
          rw [List.filter_map]
          rfl
        simp only [hf, List.isEmpty_map, throwUnless, Bool.not_false, if_true]
        have hi : (if (Strategy.filterRoadPositionResults rs (fun r => decide (r.distance ≤ b.linearTolerance))).isEmpty = true
              then rs.map (movedBy t)
              else (Strategy.filterRoadPositionResults rs (fun r => decide (r.distance ≤ b.linearTolerance))).map (movedBy t)) =
            (if (Strategy.filterRoadPositionResults rs (fun r => decide (r.distance ≤ b.linearTolerance))).isEmpty = true
              then rs else Strategy.filterRoadPositionResults rs (fun r => decide (r.distance ≤ b.linearTolerance))).map (movedBy t) := by
          split <;> rfl
        rw [hi]
        generalize (if (Strategy.filterRoadPositionResults rs (fun r => decide (r.distance ≤ b.linearTolerance))).isEmpty = true
              then rs else Strategy.filterRoadPositionResults rs (fun r => decide (r.distance ≤ b.linearTolerance))) = c
        cases c with
        | nil => rfl
        | cons r rest =>
          change Except.ok _ = Except.ok _
          exact congrArg Except.ok (geometryOf_pick t b (r :: rest) r)

/-- C134: two road geometries with the same backend: what one answers at `x` the other answers at `x` moved by the difference. -/
theorem moved_geometries_agree (t t' : Vec ℚ) (b : Strategy.Geometry L) (x : Vec ℚ) (hint : Option (Option L)) (radius : WithTop ℚ) :
    Strategy.toRoadPosition (geometryOf t' b) (fun i => x i + (t' i - t i)) hint =
      (Strategy.toRoadPosition (geometryOf t b) x hint).map (movedBy fun i => t' i - t i) ∧
    Strategy.findRoadPositions (geometryOf t' b) (fun i => x i + (t' i - t i)) radius =
      (Strategy.findRoadPositions (geometryOf t b) x radius).map (List.map (movedBy fun i => t' i - t i)) := by
  have hx : (fun i => x i + (t' i - t i) - t' i) = fun i => x i - t i := by
    funext i
    ring
  have hm : ∀ r : Strategy.RoadPositionResult L, movedBy (fun i => t' i - t i) (movedBy t r) = movedBy t' r := by
    intro r
    unfold movedBy
    congr 1
    funext i
    dsimp only
    ring
  rw [to_position_moved, to_position_moved, find_positions_moved, find_positions_moved, hx]
  constructor
  · cases Strategy.toRoadPosition b (fun i => x i - t i) hint with
    | error e => rfl
    | ok r => exact congrArg Except.ok (hm r).symm
  · cases Strategy.findRoadPositions b (fun i => x i - t i) radius with
    | error e => rfl
    | ok rs =>
      refine congrArg Except.ok ?_
      rw [List.map_map]
      exact List.map_congr_left fun r _ => (hm r).symm

/-! ### `double` -/

theorem toDouble_near {q v : ℚ} (h : Dbl.toDouble q = .fin v) : |v - q| ≤ |q| / 2 ^ 53 + 1 / 2 ^ 1075 := by
  have e : |v - q| ≤ slack q := by
    unfold Dbl.toDouble at h
    split at h
    · cases h
    · split at h
      · cases h
      · cases h
        exact Dbl.roundUnbounded_error q
  refine e.trans (max_le ?_ ?_)
  · exact le_add_of_nonneg_right (by positivity)
  · exact le_add_of_nonneg_left (by positivity)

theorem double_add_sub_near {y t x z : ℚ} (hx : Dbl.add (.fin y) (.fin t) = .fin x) (hz : Dbl.sub (.fin x) (.fin t) = .fin z) :
    |z - y| ≤ (|y| + |t|) / 2 ^ 51 + 1 / 2 ^ 1073 := by
  rw [Dbl.add_fin] at hx
  rw [Dbl.sub_fin] at hz
  have h1 := toDouble_near hx
  have h2 := toDouble_near hz
  have e0 : z - y = (z - (x - t)) + (x - (y + t)) := by ring
  have e1 : |z - y| ≤ |z - (x - t)| + |x - (y + t)| := e0 ▸ abs_add_le _ _
  have e2 : |y + t| ≤ |y| + |t| := abs_add_le _ _
  have e3 : |x - t| ≤ |x - (y + t)| + |y| := by
    have : x - t = (x - (y + t)) + y := by ring
    rw [this]
    exact abs_add_le _ _
  have hy := abs_nonneg y
  have ht := abs_nonneg t
  have d : (1 : ℚ) / 2 ^ 1073 = 4 * (1 / 2 ^ 1075) := by
    rw [show (2 : ℚ) ^ 1075 = 4 * 2 ^ 1073 by rw [show 1075 = 2 + 1073 from rfl, pow_add]; norm_num]
    field_simp
  have dpos : (0 : ℚ) ≤ 1 / 2 ^ 1075 := by positivity
  rw [d]
  generalize (1 : ℚ) / 2 ^ 1075 = d at *
  norm_num at h1 h2 ⊢
  linarith

/-- C134: in `double`, `ToLanePosition` of the result of `ToInertialPosition` asks the backend about a position `z` that is the
position `y` of the backend up to the rounding errors of two additions. -/
theorem double_round_trip_near (l : Frame.Lane Dbl.Double) (f : Vec Dbl.Double → Except Err (Vec Dbl.Double))
    (g : Vec Dbl.Double → PositionResult Dbl.Double → Except Err (PositionResult Dbl.Double)) (hf : l.backendPosition = some f)
    (hg : l.lanePositionBackend = some g) (p x : Vec Dbl.Double) (y t : Vec ℚ) (hp : f p = .ok (fun i => .fin (y i)))
    (ht : l.translation = fun i => .fin (t i)) (hx : l.toInertialPosition doubles p = .ok x)
    (hfin : ∀ i, ∃ z, Dbl.sub (x i) (.fin (t i)) = .fin z) :
    ∃ z : Vec ℚ, (∀ i, |z i - y i| ≤ (|y i| + |t i|) / 2 ^ 51 + 1 / 2 ^ 1073) ∧
      l.toLanePosition doubles x =
        (g (fun i => .fin (z i)) ⟨fun _ => 0, fun _ => 0, 0⟩).map fun r =>
          ⟨r.lanePosition, fun i => Dbl.add (r.nearestPosition i) (.fin (t i)), r.distance⟩ := by
  choose z hz using hfin
  have ex : x = fun i => Dbl.add (.fin (y i)) (.fin (t i)) := by
    unfold Lane.toInertialPosition Lane.doToBackendPosition at hx
    rw [hf] at hx
    dsimp only at hx
    rw [hp, ht] at hx
    exact (Except.ok.inj hx).symm
  refine ⟨z, fun i => ?_, ?_⟩
  · have hzi := hz i
    cases h : x i with
    | fin v => exact double_add_sub_near (by rw [← h, ex]) (h ▸ hzi)
    | nan => rw [h] at hzi; cases hzi
    | ninf => rw [h] at hzi; cases hzi
    | pinf => rw [h] at hzi; cases hzi
  · unfold Lane.toLanePosition useTranslation Lane.doToLanePositionBackend
    rw [hg, ht]
    have e : doubles.vsub x (fun i => .fin (t i)) = fun i => .fin (z i) := funext hz
    dsimp only
    rw [e]
    change (do let out ← g (fun i => .fin (z i)) ⟨fun _ => 0, fun _ => 0, 0⟩; _) = _
    cases g (fun i => .fin (z i)) ⟨fun _ => 0, fun _ => 0, 0⟩ <;> rfl

/-- C134: and about exactly the position `y` if the sums are doubles. -/
theorem double_round_trip_exact (l : Frame.Lane Dbl.Double) (f : Vec Dbl.Double → Except Err (Vec Dbl.Double))
    (g : Vec Dbl.Double → PositionResult Dbl.Double → Except Err (PositionResult Dbl.Double)) (hf : l.backendPosition = some f)
    (hg : l.lanePositionBackend = some g) (p q : Vec Dbl.Double) (d : Dbl.Double) (y t : Vec ℚ)
    (hp : f p = .ok (fun i => .fin (y i))) (ht : l.translation = fun i => .fin (t i)) (hy : ∀ i, Representable (y i))
    (hsum : ∀ i, Representable (y i + t i)) (hq : ∀ out, g (fun i => .fin (y i)) out = .ok ⟨q, fun i => .fin (y i), d⟩) :
    ∃ x, l.toInertialPosition doubles p = .ok x ∧ l.toLanePosition doubles x = .ok ⟨q, x, d⟩ := by
  have hadd : ∀ i, Dbl.add (.fin (y i)) (.fin (t i)) = .fin (y i + t i) := fun i => by
    rw [Dbl.add_fin, Dbl.toDouble_representable (hsum i)]
  have hsub : ∀ i, Dbl.sub (.fin (y i + t i)) (.fin (t i)) = .fin (y i) := fun i => by
    rw [Dbl.sub_fin, add_sub_cancel_right, Dbl.toDouble_representable (hy i)]
  have evadd : doubles.vadd (fun i => .fin (y i)) (fun i => .fin (t i)) = fun i => .fin (y i + t i) := funext hadd
  have evsub : doubles.vsub (fun i => .fin (y i + t i)) (fun i => .fin (t i)) = fun i => .fin (y i) := funext hsub
  refine ⟨fun i => .fin (y i + t i), ?_, ?_⟩
  · unfold Lane.toInertialPosition Lane.doToBackendPosition
    rw [hf]
    dsimp only
    rw [hp, ht]
    exact congrArg Except.ok evadd
  · unfold Lane.toLanePosition useTranslation Lane.doToLanePositionBackend
    rw [hg, ht]
    dsimp only
    rw [evsub, hq]
    change Except.ok _ = Except.ok _
    dsimp only
    rw [evadd]

/-- A straight lane along the first axis, in the backend frame; its two functions are inverse to each other without rounding. -/
def exStraightDouble (t : Vec Dbl.Double) : Frame.Lane Dbl.Double where
  translation := t
  backendPosition := some fun p => .ok p
  lanePositionBackend := some fun x _ => .ok ⟨x, x, .fin 0⟩
  segmentPositionBackend := none

/-- C134: not in general: with a translation of 2^53 along the first axis the lane position at one is found again at zero. -/
theorem double_round_trip_fails :
    ∃ x, (exStraightDouble ![.fin (2 ^ 53), .fin 0, .fin 0]).toInertialPosition doubles ![.fin 1, .fin 0, .fin 0] = .ok x ∧
      ((exStraightDouble ![.fin (2 ^ 53), .fin 0, .fin 0]).toLanePosition doubles x).toOption.map PositionResult.lanePosition =
        some ![.fin 0, .fin 0, .fin 0] := by
  refine ⟨_, rfl, ?_⟩
  decide +kernel

/-! ### The hypotheses are met -/

/-- A straight lane along the first axis: the nearest position is the projection, in the distance along the two other axes. -/
def exStraight (t : Vec ℚ) : Frame.Lane ℚ where
  translation := t
  backendPosition := some fun p => .ok ![p 0, p 1, p 2]
  lanePositionBackend := some fun x _ => .ok ⟨![x 0, 0, 0], ![x 0, 0, 0], max |x 1| |x 2|⟩
  segmentPositionBackend := some fun x _ => .ok ⟨x, x, 0⟩

example : ((exStraight ![100, 20, 0]).toInertialPosition rationals ![5, 0, 0]).toOption = some ![105, 20, 0] := by decide +kernel
example : ((exStraight ![100, 20, 0]).toLanePosition rationals ![105, 23, 0]).toOption.map (fun r => (r.lanePosition, r.nearestPosition, r.distance)) =
    some (![5, 0, 0], ![105, 20, 0], 3) := by decide +kernel
example : ((exStraight ![100, 20, 0]).toSegmentPosition rationals ![105, 23, 0]).toOption.map (fun r => (r.lanePosition, r.nearestPosition, r.distance)) =
    some (![5, 3, 0], ![105, 23, 0], 0) := by decide +kernel
/-- The round trip. -/
example : ∃ x, (exStraight ![100, 20, 0]).toInertialPosition rationals ![5, 0, 0] = .ok x ∧
    (exStraight ![100, 20, 0]).toLanePosition rationals x = .ok ⟨![5, 0, 0], x, 0⟩ :=
  lane_position_round_trip _ _ _ rfl rfl _ ![5, 0, 0] (by decide +kernel) fun _ => by decide +kernel
/-- A distance that does not depend on the frame. -/
example (u v t : Vec ℚ) : (fun u v : Vec ℚ => max (max |u 0 - v 0| |u 1 - v 1|) |u 2 - v 2|) (fun i => u i + t i) (fun i => v i + t i) =
    (fun u v : Vec ℚ => max (max |u 0 - v 0| |u 1 - v 1|) |u 2 - v 2|) u v := by simp
/-- The road geometry of the position queries, moved. -/
example : ((Strategy.findRoadPositions (geometryOf ![100, 20, 0] exGeometry) ![205/2, 20, 0] (1 : ℚ)).toOption.map
    (List.map fun r => (r.lane, r.nearest, r.distance))) = some [(0, ![205/2, 20, 0], 0)] := by decide +kernel
/-- A lane whose positions are found again exactly. -/
example : ∃ x, (exStraightDouble ![.fin 100, .fin 20, .fin 0]).toInertialPosition doubles ![.fin 5, .fin 0, .fin 0] = .ok x ∧
    (exStraightDouble ![.fin 100, .fin 20, .fin 0]).toLanePosition doubles x = .ok ⟨![.fin 5, .fin 0, .fin 0], x, .fin 0⟩ := by
  have e : ∀ a b c : ℚ, (![Dbl.Double.fin a, .fin b, .fin c] : Vec Dbl.Double) = fun i => .fin ((![a, b, c] : Vec ℚ) i) := by
    intro a b c
    funext i
    fin_cases i <;> rfl
  have r : ∀ n : ℤ, |n| < 2 ^ 53 → Representable (n : ℚ) := fun n h => ⟨n, 0, h, by norm_num, by norm_num, by simp⟩
  have r5 := r 5 (by norm_num)
  have r0 := r 0 (by norm_num)
  have r105 := r 105 (by norm_num)
  have r20 := r 20 (by norm_num)
  norm_num at r5 r0 r105 r20
  refine double_round_trip_exact _ _ _ rfl rfl ![.fin 5, .fin 0, .fin 0] _ _ ![5, 0, 0] ![100, 20, 0] (congrArg Except.ok (e 5 0 0))
    (e 100 20 0) ?_ ?_ fun _ => by rw [e 5 0 0]
  · intro i
    fin_cases i <;> simpa
  · intro i
    fin_cases i <;> norm_num <;> assumption

end Maliput.Props
