import Verif.Model.GenerateString

set_option autoImplicit false

/-!
# What the text of a road geometry is to say

Its lines, and what they tell about the road geometry.
-/
namespace Maliput.RoadText.Spec

/-- The parts of a road geometry, from the outside in. -/
inductive Part
  | geometry
  | junction
  | segment
  | lane
deriving DecidableEq

/-- The label of a part. -/
def Part.label : Part → String
  | .geometry => "geometry: "
  | .junction => "junction: "
  | .segment => "segment: "
  | .lane => "lane: "

/-- The parts which are to be in the text. -/
def Part.shown (o : Options) : Part → Bool
  | .geometry => o.geometry
  | .junction => o.junctions
  | .segment => o.segments
  | .lane => o.lanes

/-- The parts a part is in. -/
def Part.around : Part → List Part
  | .geometry => []
  | .junction => [.geometry]
  | .segment => [.geometry, .junction]
  | .lane => [.geometry, .junction, .segment]

/-- The spaces in front of a line: two for each shown part around. -/
def spaces (o : Options) (p : Part) : List Char := List.replicate (2 * (p.around.filter (Part.shown o)).length) ' '

/-- The line of a part, when it is shown. -/
def line (o : Options) (p : Part) (id : List Char) : List (List Char) :=
  if p.shown o then [spaces o p ++ (if o.labels then p.label.toList else []) ++ id] else []

/-- The lines of the details of a lane. -/
def detailLines (o : Options) (l : Lane) : List (List Char) :=
  if o.lanes && o.details then
    ["  length: ".toList ++ l.length, "  geo positions:".toList, "    s_min: ".toList ++ l.start, "    s_max: ".toList ++ l.finish,
      "  to left: ".toList ++ l.left.getD [], "  to right: ".toList ++ l.right.getD []].map (spaces o .lane ++ ·)
  else []

/-- The lines of a road geometry: each part followed by what is in it. -/
def lines (o : Options) (g : RoadGeometry) : List (List Char) :=
  line o .geometry g.id ++ (g.junctions.filterMap id).flatMap fun j =>
    line o .junction j.id ++ j.segments.flatMap fun s =>
      line o .segment s.id ++ s.lanes.flatMap fun l =>
        line o .lane l.id ++ detailLines o l

/-- Lines with an end of line between them. -/
def unlines : List (List Char) → List Char
  | [] => []
  | [l] => l
  | l :: ls => l ++ '\n' :: unlines ls

/-- The ids in a road geometry and which part is in which. -/
def outline (g : RoadGeometry) : List Char × List (List Char × List (List Char × List (List Char))) :=
  (g.id, (g.junctions.filterMap id).map fun j => (j.id, j.segments.map fun s => (s.id, s.lanes.map (·.id))))

/-- All ids. -/
def ids (g : RoadGeometry) : List (List Char) :=
  g.id :: (g.junctions.filterMap id).flatMap fun j =>
    j.id :: j.segments.flatMap fun s => s.id :: s.lanes.map (·.id)

end Maliput.RoadText.Spec
