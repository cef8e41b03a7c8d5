import Mathlib.Analysis.Convex.Hull
import Verif.Model.RoadMesh

set_option autoImplicit false

/-! Specification of the faces that are made for a lane: what they cover of the plane of the coordinates s and r. -/
namespace Maliput.RoadMesh.Spec

open Maliput.RoadMesh

/-- The points `(s, r)` of a face. -/
def area (f : SrhFace) : Set (ℚ × ℚ) := convexHull ℚ {p | ∃ v ∈ f.vertices, p = (v.s, v.r)}

/-- The points `(s, r)` of any of the faces. -/
def covered (fs : List SrhFace) : Set (ℚ × ℚ) := {p | ∃ f ∈ fs, p ∈ area f}

/-- The points from `s0` to `s1` that are not below the straight line from `(s0, lo0)` to `(s1, lo1)` and not above the
straight line from `(s0, hi0)` to `(s1, hi1)`. -/
def Strip (s0 s1 lo0 lo1 hi0 hi1 : ℚ) : Set (ℚ × ℚ) :=
  {p | ∃ t : ℚ, 0 ≤ t ∧ t ≤ 1 ∧ p.1 = (1 - t) * s0 + t * s1 ∧
    (1 - t) * lo0 + t * lo1 ≤ p.2 ∧ p.2 ≤ (1 - t) * hi0 + t * hi1}

/-- Whether the way from `a` over `b` to `c` turns to the left, where `s` points forward and `r` to the left. -/
def turn (a b c : Srh) : ℚ := (b.s - a.s) * (c.r - a.r) - (b.r - a.r) * (c.s - a.s)

/-- The corners of a face are in counterclockwise order when seen from above: it turns left, or goes straight on, at each
of them. -/
def Counterclockwise (f : SrhFace) : Prop :=
  ∀ i, i < f.vertices.length → ∀ a b c, f.vertices[i]? = some a → f.vertices[(i + 1) % f.vertices.length]? = some b →
    f.vertices[(i + 2) % f.vertices.length]? = some c → 0 ≤ turn a b c

/-- It turns left at each of the corners. -/
def StrictlyCounterclockwise (f : SrhFace) : Prop :=
  ∀ i, i < f.vertices.length → ∀ a b c, f.vertices[i]? = some a → f.vertices[(i + 1) % f.vertices.length]? = some b →
    f.vertices[(i + 2) % f.vertices.length]? = some c → 0 < turn a b c

/-- Increasing numbers from zero to the length of a lane. -/
structure Stations (length : ℚ) (l : List ℚ) : Prop where
  first : l.head? = some 0
  last : l.getLast? = some length
  increasing : l.Pairwise (· < ·)

/-- The pairs of consecutive numbers. -/
def strips (l : List ℚ) : List (ℚ × ℚ) := l.zip l.tail

/-- How far the faces of one side reach at both ends of a strip if the lane reaches to `m0` and `m1` there: the number
of faces is determined by the nearer end of the lane. -/
def reach (g m0 m1 : ℚ) : ℚ × ℚ := (min m0 (g * ⌈min m0 m1 / g⌉), min m1 (g * ⌈min m0 m1 / g⌉))

/-- The left side of a strip. -/
def LeftSide (g s0 s1 : ℚ) (b0 b1 : RBounds) : Set (ℚ × ℚ) :=
  {p | 0 < min b0.max b1.max ∧ p ∈ Strip s0 s1 0 0 (reach g b0.max b1.max).1 (reach g b0.max b1.max).2}

/-- The right side of a strip. -/
def RightSide (g s0 s1 : ℚ) (b0 b1 : RBounds) : Set (ℚ × ℚ) :=
  {p | max b0.min b1.min < 0 ∧
    p ∈ Strip s0 s1 (-(reach g (-b0.min) (-b1.min)).1) (-(reach g (-b0.min) (-b1.min)).2) 0 0}

/-- The points between the bounds at the ends of a strip. -/
def Between (s0 s1 : ℚ) (b0 b1 : RBounds) : Set (ℚ × ℚ) := Strip s0 s1 b0.min b1.min b0.max b1.max

/-- A vertex is on the lane, within its bounds, and at the given elevation. -/
def OnLane (l : Lane) (seg : Bool) (elevation : ℚ → ℚ → ℚ) (v : Srh) : Prop :=
  0 ≤ v.s ∧ v.s ≤ l.length ∧
  (if seg then (l.segmentBounds v.s).min else (l.laneBounds v.s).min) ≤ v.r ∧
  v.r ≤ (if seg then (l.segmentBounds v.s).max else (l.laneBounds v.s).max) ∧
  v.h = elevation v.s v.r

/-- The distances of the center line and of both bounds of the lane from `s` to `s + step` differ from `step` by at most
`g`. -/
def StraightEnough (dist : Pos → Pos → ℚ) (l : Lane) (g s step : ℚ) : Prop :=
  |dist (l.toInertial ⟨s, 0, 0⟩) (l.toInertial ⟨s + step, 0, 0⟩) - step| ≤ g ∧
  |dist (l.toInertial ⟨s, (l.laneBounds s).max, 0⟩)
    (l.toInertial ⟨s + step, (l.laneBounds (s + step)).max, 0⟩) - step| ≤ g ∧
  |dist (l.toInertial ⟨s, (l.laneBounds s).min, 0⟩)
    (l.toInertial ⟨s + step, (l.laneBounds (s + step)).min, 0⟩) - step| ≤ g

/-- What is known of a step: it is the shortest that is ever made, or it is straight enough, or it goes to the end of
the lane and all but less than `g` of it is straight enough. -/
def GoodStep (dist : Pos → Pos → ℚ) (l : Lane) (g s0 step : ℚ) : Prop :=
  step = min g (l.length - s0) ∨ StraightEnough dist l g s0 step ∨
    (step = l.length - s0 ∧ ∃ p, 0 < p ∧ p ≤ step ∧ step - p < g ∧ StraightEnough dist l g s0 p)

/-- A face at the elevation `h` that is seen from above. -/
def Flat (h : ℚ) (f : SrhFace) : Prop := Counterclockwise f ∧ f.normal = ⟨0, 0, 1⟩ ∧ ∀ v ∈ f.vertices, v.h = h

/-- The points of the triangle whose base is from `(s, -right)` to `(s, left)` and whose tip is `(s + size, 0)`. -/
def Triangle (s size left right : ℚ) : Set (ℚ × ℚ) :=
  {p | ∃ t : ℚ, 0 ≤ t ∧ t ≤ 1 ∧ p.1 = s + t * size ∧ -((1 - t) * right) ≤ p.2 ∧ p.2 ≤ (1 - t) * left}

end Maliput.RoadMesh.Spec
