import Mathlib.Data.List.FinRange
import Mathlib.Data.ZMod.Defs
import Mathlib.Logic.Function.Basic
import Verif.Model.AxisAlignedBox

set_option autoImplicit false

/-!
Model of include/maliput/math/kd_tree.h.  `P` is the type of the stored elements and `coord` their
coordinates (`operator[]`), which are finite.  The functor parameters have their default values
(`SquaredDistance`, `NodeCmp`).
-/
namespace Maliput.KdTree

/-- The contract of `std::nth_element(first, nth, last, NodeCmp(index))` ([alg.nth.element]): a
permutation with no element before position `k` greater, and none after it smaller, than the one at
position `k`.  Any implementation that meets the contract is covered. -/
structure NthElement {d : ℕ} {P : Type} (coord : P → Fin d → ℚ) where
  /-- elements before, at, and after position `k` -/
  run : Fin d → (l : List P) → (k : ℕ) → k < l.length → List P × P × List P
  perm : ∀ i l k h, ((run i l k h).1 ++ (run i l k h).2.1 :: (run i l k h).2.2).Perm l
  pos : ∀ i l k h, (run i l k h).1.length = k
  before : ∀ i l k h, ∀ x ∈ (run i l k h).1, ¬ coord (run i l k h).2.1 i < coord x i
  after : ∀ i l k h, ∀ x ∈ (run i l k h).2.2, ¬ coord x i < coord (run i l k h).2.1 i

/-- `class Node`, include/maliput/math/kd_tree.h:54-97: point, splitting dimension, children.  The
`nullptr` child is `nil`; the parent pointer is implicit. -/
inductive Tree (d : ℕ) (P : Type)
  | nil
  | node (point : P) (index : Fin d) (left right : Tree d P)

/-- `MakeKdTree`, include/maliput/math/kd_tree.h:118-140.  The in-place range `[begin, end)` of the
deque is the list `l`; the recursion depth is bounded by the fuel `n`, and is called with
`n = l.length`, which always suffices. -/
def makeKdTree {d : ℕ} [NeZero d] {P : Type} {coord : P → Fin d → ℚ} (nth : NthElement coord) :
    ℕ → List P → Fin d → Tree d P
  | 0, _, _ => .nil
  | n + 1, l, index =>
    if h : 0 < l.length then
      let r := nth.run index l (l.length / 2) (Nat.div_lt_self h (by decide))
      .node r.2.1 index (makeKdTree nth n r.1 (index + 1)) (makeKdTree nth n r.2.2 (index + 1))
    else .nil

/-- `KDTreeBase::KDTreeBase`, include/maliput/math/kd_tree.h:253-271. -/
def make {d : ℕ} [NeZero d] {P : Type} {coord : P → Fin d → ℚ} (nth : NthElement coord)
    (points : List P) : Except Err (Tree d P) := do
  throwUnless (!points.isEmpty)
  return makeKdTree nth points.length points 0

/-- `SquaredDistance`, include/maliput/math/kd_tree.h:185-201. -/
def squaredDistance {d : ℕ} (a b : Fin d → ℚ) : ℚ :=
  (List.finRange d).foldl (fun dist i => dist + (a i - b i) * (a i - b i)) 0

/-- The recursive `nearest_point`, include/maliput/math/kd_tree.h:309-333.  The pair of pointers
(best node, best distance) is an option: `none` is (nullptr, infinity). -/
def nearestRec {d : ℕ} [NeZero d] {P : Type} (coord : P → Fin d → ℚ) (q : Fin d → ℚ) (tol : ℚ) :
    Tree d P → Fin d → Option (P × ℚ) → Option (P × ℚ)
  | .nil, _, best => best
  | .node p _ l r, index, best =>
    let dist := squaredDistance (coord p) q
    let best : P × ℚ := match best with
      | none => (p, dist)
      | some b => if dist < b.2 then (p, dist) else b
    if best.2 < tol then some best
    else
      let dx := coord p index - q index
      let best1 := if dx > 0 then nearestRec coord q tol l (index + 1) (some best)
        else nearestRec coord q tol r (index + 1) (some best)
      match best1 with
      | none => none
      | some b =>
        if dx * dx ≥ b.2 then some b
        else if dx > 0 then nearestRec coord q tol r (index + 1) (some b)
        else nearestRec coord q tol l (index + 1) (some b)

/-- `KDTreeBase::nearest_point(point, tolerance)`, include/maliput/math/kd_tree.h:289-296. -/
def nearestPoint {d : ℕ} [NeZero d] {P : Type} (coord : P → Fin d → ℚ) (t : Tree d P) (q : Fin d → ℚ)
    (tol : ℚ) : Except Err P := do
  match t with
  | .nil => .error .throws
  | t =>
    throwUnless (decide (tol > 0))
    match nearestRec coord q tol t 0 none with
    | some b => return b.1
    | none => .error .ub  -- dereferences nullptr

/-! ### Regions and range search (`KDTree3D`) -/

/-- A tree whose nodes hold their region (`Node::region_`). -/
inductive RTree (P : Type)
  | nil
  | node (point : P) (region : AxisAlignedBox) (left right : RTree P)

/-- The coordinates of an element as a `Vector3`. -/
def vec {P : Type} (coord : P → Fin 3 → ℚ) (p : P) : Vec3 := fun i => Ext.fin (coord p i)

/-- `Initialize3dRegions`, include/maliput/math/kd_tree.h:159-180; the parent's region, splitting
dimension and point are arguments.  The null check of the callers is the `nil` case. -/
def initialize3dRegions {P : Type} (coord : P → Fin 3 → ℚ) (left : Bool) (parentRegion : AxisAlignedBox)
    (parentIndex : Fin 3) (parent : P) : Tree 3 P → Except Err (RTree P)
  | .nil => .ok .nil
  | .node p index l r => do
    let minCorner : Vec3 := if left then fun _ => Ext.negInf
      else Function.update (fun _ => Ext.negInf) parentIndex (Ext.fin (coord parent parentIndex))
    let maxCorner : Vec3 := if left then
        Function.update (fun _ => Ext.posInf) parentIndex (Ext.fin (coord parent parentIndex))
      else fun _ => Ext.posInf
    let halfSpace ← AxisAlignedBox.makeDefault minCorner maxCorner
    match ← parentRegion.getIntersection halfSpace with
    | none => .error .throws
    | some region =>
      let l' ← initialize3dRegions coord true region index p l
      let r' ← initialize3dRegions coord false region index p r
      return .node p region l' r'

/-- `KDTree3D::InitializeRegions`, include/maliput/math/kd_tree.h:425-433. -/
def initializeRegions {P : Type} (coord : P → Fin 3 → ℚ) : Tree 3 P → Except Err (RTree P)
  | .nil => .error .ub
  | .node p index l r => do
    let region ← AxisAlignedBox.makeDefault (fun _ => Ext.negInf) (fun _ => Ext.posInf)
    let l' ← initialize3dRegions coord true region index p l
    let r' ← initialize3dRegions coord false region index p r
    return .node p region l' r'

/-- `KDTree3D::KDTree3D`, include/maliput/math/kd_tree.h:401-406. -/
def make3d {P : Type} {coord : P → Fin 3 → ℚ} (nth : NthElement coord) (points : List P) :
    Except Err (RTree P) := do
  let t ← make nth points
  initializeRegions coord t

/-- `ReportPointsInSubTree`, include/maliput/math/kd_tree.h:474-481. -/
def report {P : Type} : RTree P → List P
  | .nil => []
  | .node p _ l r => p :: (report l ++ report r)

/-- `KDTree3D::RangeSearch`, include/maliput/math/kd_tree.h:412-416 and 440-469.  The result deque
is returned instead of appended to. -/
def rangeSearch {P : Type} (coord : P → Fin 3 → ℚ) (region : AxisAlignedBox) : RTree P → List P
  | .nil => []
  | .node p _ .nil .nil => if region.contains (vec coord p) then [p] else []
  | .node p nodeRegion l r =>
    match region.overlaps nodeRegion with
    | .contained => report (.node p nodeRegion l r)
    | .intersected =>
      (if region.contains (vec coord p) then [p] else []) ++ (rangeSearch coord region l ++ rangeSearch coord region r)
    | .disjointed => []

end Maliput.KdTree
