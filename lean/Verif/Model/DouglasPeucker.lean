import Mathlib.Analysis.Real.Sqrt
import Verif.Model.Basic

set_option autoImplicit false

/-!
Model of `DistanceToAPlane`, `DistanceToALine`, `ApplyDouglasPeuckerSimplification` and `SimplifyMeshFacesContour` of
maliput/utility/mesh_simplification, with the operations of `math::Vector3` they use.  Doubles are real numbers; a NaN
is `none`, and a comparison with it is false.
-/
namespace Maliput.Linear

/-- `math::Vector3`, include/maliput/math/vector.h:230-276. -/
@[ext] structure V3 where
  x : ℝ
  y : ℝ
  z : ℝ

/-- `operator+`, src/maliput/math/vector.cc:179-184. -/
def V3.add (a b : V3) : V3 := ⟨a.x + b.x, a.y + b.y, a.z + b.z⟩

/-- `operator-`, src/maliput/math/vector.cc:194-199. -/
def V3.sub (a b : V3) : V3 := ⟨a.x - b.x, a.y - b.y, a.z - b.z⟩

/-- `operator*` with a number, src/maliput/math/vector.cc:208-219. -/
def V3.smul (k : ℝ) (a : V3) : V3 := ⟨k * a.x, k * a.y, k * a.z⟩

/-- `VectorBase::dot`, src/maliput/math/vector.cc:107-110. -/
def V3.dot (a b : V3) : ℝ := a.x * b.x + a.y * b.y + a.z * b.z

/-- `VectorBase::norm`, src/maliput/math/vector.cc:112-115. -/
noncomputable def V3.norm (a : V3) : ℝ := Real.sqrt (a.dot a)

/-- `VectorBase::normalized`, src/maliput/math/vector.cc:123-126: all components are NaN if the norm is zero. -/
noncomputable def V3.normalized (a : V3) : Option V3 := if a.norm = 0 then none else some (V3.smul (1 / a.norm) a)

/-- `DistanceToAPlane`, src/maliput/utility/mesh_simplification.cc:41-45. -/
noncomputable def distanceToAPlane (n p q : V3) : Except Err ℝ :=
  if n.norm = 0 then .error .aborts else .ok |(n.dot q - n.dot p) / n.norm|

/-- `DistanceToALine`, src/maliput/utility/mesh_simplification.cc:47-50. -/
noncomputable def distanceToALine (p r q : V3) : Option ℝ :=
  r.normalized.map fun u => ((q.sub p).sub (V3.smul (u.dot (q.sub p)) u)).norm

end Maliput.Linear

namespace Maliput.DouglasPeucker

variable {α K : Type}

/-- `a < b` for numbers that may be NaN. -/
def less [LT K] [DecidableRel (α := K) (· < ·)] : Option K → Option K → Bool
  | some a, some b => decide (a < b)
  | _, _ => false

/-- `std::max_element`: the index of the first element that is not less than any other, for the elements after
`best` in a sequence whose next element has the index `i`. -/
def maxFrom [LT K] [DecidableRel (α := K) (· < ·)] (key : α → Option K) : List α → Nat → Nat → α → Nat
  | [], _, bestIndex, _ => bestIndex
  | x :: rest, i, bestIndex, best =>
    if less (key best) (key x) then maxFrom key rest (i + 1) i x else maxFrom key rest (i + 1) bestIndex best

/-- The index `std::max_element` finds in a non-empty sequence; zero in an empty one. -/
def maxElement [LT K] [DecidableRel (α := K) (· < ·)] (key : α → Option K) : List α → Nat
  | [] => 0
  | x :: rest => maxFrom key rest 1 0 x

theorem maxFrom_le [LT K] [DecidableRel (α := K) (· < ·)] (key : α → Option K) (l : List α) :
    ∀ (i b : Nat) (x : α), b < i → maxFrom key l i b x < i + l.length := by
  induction l with
  | nil => intro i b x h; simpa [maxFrom] using h
  | cons y l ih =>
    intro i b x h
    simp only [maxFrom, List.length_cons]
    split
    · have := ih (i + 1) i y (by omega); omega
    · have := ih (i + 1) b x (by omega); omega

theorem maxElement_lt [LT K] [DecidableRel (α := K) (· < ·)] (key : α → Option K) (l : List α) (h : l ≠ []) :
    maxElement key l < l.length := by
  rcases l with _ | ⟨x, l⟩
  · exact absurd rfl h
  · simp only [maxElement, List.length_cons]
    have := maxFrom_le key l 1 0 x (by omega); omega

/-- `ApplyDouglasPeuckerSimplification`, include/maliput/utility/mesh_simplification.h:290-311, for the elements from
`first` to `last`, `last` included.  `dist a b x` is the distance of `x` to the line `to_edge(a, b)`.  The range
[first, last] of a call has at least one element; the empty list is not the argument of any call. -/
def simplify [LT K] [DecidableRel (α := K) (· < ·)] (dist : α → α → α → Option K) (tolerance : K) : List α → List α
  | [] => []
  | [x] => [x]
  | first :: second :: rest =>
    let last := (second :: rest).getLast (by simp)
    let body := first :: (second :: rest).dropLast
    let farthest := maxElement (dist first last) body
    if less (some tolerance) ((body[farthest]?).bind (dist first last)) then
      simplify dist tolerance ((first :: second :: rest).take (farthest + 1)) ++
        simplify dist tolerance ((first :: second :: rest).drop (farthest + 1))
    else [first, last]
  termination_by l => l.length
  decreasing_by
    · have := maxElement_lt (dist first last) body (by simp [body])
      simp [body] at this
      simp; omega
    · simp

open Maliput.Linear

/-- The edge and distance functions of `SimplifyMeshFacesContour`,
src/maliput/utility/mesh_simplification.cc:218-220: the line from `a` towards `b`. -/
noncomputable def lineDistance (a b x : V3) : Option ℝ :=
  (b.sub a).normalized.bind fun r => distanceToALine a r x

open Classical in
/-- `SimplifyMeshFacesContour`, src/maliput/utility/mesh_simplification.cc:208-224: `pos` gives the positions of the
vertices. -/
noncomputable def simplifyContour (pos : α → V3) (tolerance : ℝ) (contour : List α) : List α :=
  if contour.length ≤ 3 then contour
  else simplify (fun a b x => lineDistance (pos a) (pos b) (pos x)) tolerance contour

end Maliput.DouglasPeucker
