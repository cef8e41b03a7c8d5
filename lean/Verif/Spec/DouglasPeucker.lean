import Verif.Model.DouglasPeucker

set_option autoImplicit false

/-! Specification of the simplification of polylines, and of distances to lines and planes. -/
namespace Maliput.DouglasPeucker.Spec

open Maliput.Linear

/-- `out` is the polyline `l` without some of its elements: the first and the last are kept, the order is kept, and
every element that is left out is near the line through the kept elements around it. -/
def Simplified {α : Type} (near : α → α → α → Prop) (l out : List α) : Prop :=
  ∃ kept : List Nat,
    out.map some = kept.map (fun i => l[i]?) ∧
    kept.head? = some 0 ∧ kept.getLast? = some (l.length - 1) ∧
    kept.IsChain fun i j => i < j ∧ ∀ k, i < k → k < j → ∀ x y z, l[i]? = some x → l[j]? = some y → l[k]? = some z →
      near x y z

/-- The Euclidean distance of two points. -/
noncomputable def distance (a b : V3) : ℝ := Real.sqrt ((a.x - b.x) ^ 2 + (a.y - b.y) ^ 2 + (a.z - b.z) ^ 2)

/-- The point `p + t r`. -/
def along (p r : V3) (t : ℝ) : V3 := ⟨p.x + t * r.x, p.y + t * r.y, p.z + t * r.z⟩

/-- `x` is in the plane through `p` that is orthogonal to `n`. -/
def InPlane (n p x : V3) : Prop := n.x * (x.x - p.x) + n.y * (x.y - p.y) + n.z * (x.z - p.z) = 0

end Maliput.DouglasPeucker.Spec
