import Verif.Model.MeshSimplification
import Verif.Spec.DouglasPeucker
import Mathlib.Logic.Relation

set_option autoImplicit false

/-! Specification of the edges of faces, of contours and of sets of faces that are merged. -/
namespace Maliput.MeshSimplification.Spec

variable {α : Type}

/-- The start and end vertex of edge `e.2` of the face `e.1`, where each face is the list of its vertices (or of
what stands for them). -/
def edge (faces : List (List α)) (e : FaceEdge) : Option (α × α) :=
  match faces[e.1]? with
  | none => none
  | some face =>
    match face[e.2]?, face[(e.2 + 1) % face.length]? with
    | some a, some b => some (a, b)
    | _, _ => none

/-- No pair of vertices is joined by two edges in the same direction. -/
def OnceEach (faces : List (List α)) : Prop :=
  ∀ e e' d, edge faces e = some d → edge faces e' = some d → e = e'

/-- `e` and `e'` are the same edge in opposite directions. -/
def Twins (faces : List (List α)) (e e' : FaceEdge) : Prop :=
  ∃ a b, edge faces e = some (a, b) ∧ edge faces e' = some (b, a)

/-- The faces `f` and `g` share an edge. -/
def Share (faces : List (List α)) (f g : Nat) : Prop := ∃ i j, Twins faces (f, i) (g, j)

/-- `e` is an edge of the region that it does not share with another face of the region. -/
def Boundary (faces : List (List α)) (region : List Nat) (e : FaceEdge) : Prop :=
  e.1 ∈ region ∧ (edge faces e).isSome ∧ ∀ e', Twins faces e e' → e'.1 ∉ region

/-- The end of edge `e` is the start of edge `e'`. -/
def Follows (faces : List (List α)) (e e' : FaceEdge) : Prop :=
  ∃ a b c, edge faces e = some (a, b) ∧ edge faces e' = some (b, c)

/-- The edges follow one another, and the first follows the last. -/
def Closed (faces : List (List α)) (c : List FaceEdge) : Prop :=
  c.IsChain (Follows faces) ∧ ∀ x ∈ c.getLast?, ∀ y ∈ c.head?, Follows faces x y

/-- The faces of the set are connected through edges that they share. -/
def Connected (faces : List (List α)) (group : List Nat) : Prop :=
  ∀ f ∈ group, ∀ g ∈ group, Relation.ReflTransGen (fun a b => a ∈ group ∧ b ∈ group ∧ Share faces a b) f g

/-- How a mesh is partitioned into sets of faces, in the order in which they are merged, where `planar f` tells whether
a face lies on its own plane and `coplanar f g` whether `g` lies on the plane of `f`:
- each face is in exactly one set;
- each set is connected;
- the faces of a set after its first one lie on the plane of the first one, as it does itself;
- a face that shares an edge with a set whose first face lies on its own plane, and that is in a later set, does not
  lie on that plane;
- the first face of a set is the first face that is not in the sets before. -/
structure Partition (faces : List (List α)) (planar : Nat → Prop) (coplanar : Nat → Nat → Prop)
    (groups : List (List Nat)) : Prop where
  once : groups.flatten.Perm (List.range faces.length)
  connected : ∀ g ∈ groups, Connected faces g
  lies : ∀ first rest, (first :: rest) ∈ groups → ∀ f ∈ rest, first < f ∧ planar first ∧ coplanar first f
  nonempty : [] ∉ groups
  maximal : ∀ before first rest after, groups = before ++ (first :: rest) :: after → planar first →
    ∀ f ∈ first :: rest, ∀ g ∈ after.flatten, Share faces f g → ¬ coplanar first g
  order : (groups.map (·.head?)).Pairwise fun a b => ∀ x ∈ a, ∀ y ∈ b, x < y

open Maliput.Linear Maliput.DouglasPeucker.Spec

/-- The line through `x` along its normal `nx` meets the plane through `p` that is orthogonal to `n`, in one point, at a
distance less than `tolerance` from `x`, if `n` is a unit vector. -/
def OnPlane (n p : V3) (tolerance : ℝ) (x nx : V3) : Prop :=
  n.dot nx ≠ 0 ∧ ∃ t, InPlane n p (along x nx t) ∧ distance x (along x nx t) < tolerance * distance n ⟨0, 0, 0⟩

/-- The vertices of face `f` lie on the plane of its first vertex, where each face is a list of vertices with their
normals. -/
def Planar (fs : List (List (V3 × V3))) (tolerance : ℝ) (f : Nat) : Prop :=
  ∃ p n rest, fs[f]? = some ((p, n) :: rest) ∧ ∀ vn ∈ rest, OnPlane n p tolerance vn.1 vn.2

/-- The vertices of face `g` lie on the plane of the first vertex of face `f`. -/
def Coplanar (fs : List (List (V3 × V3))) (tolerance : ℝ) (f g : Nat) : Prop :=
  ∃ p n rest, fs[f]? = some ((p, n) :: rest) ∧ ∀ face, fs[g]? = some face → ∀ vn ∈ face, OnPlane n p tolerance vn.1 vn.2

end Maliput.MeshSimplification.Spec
