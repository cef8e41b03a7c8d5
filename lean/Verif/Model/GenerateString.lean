import Verif.Model.Basic

set_option autoImplicit false

/-!
# Text of a road geometry

`src/maliput/utility/generate_string.cc`. Text is a list of characters. The numbers and positions of a lane are given as the text
`operator<<` makes of them.
-/
namespace Maliput.RoadText

/-- A lane, with the text of its length and of the inertial positions of its ends
(src/maliput/utility/generate_string.cc:108-124). -/
structure Lane where
  id : List Char
  length : List Char
  start : List Char
  finish : List Char
  left : Option (List Char)
  right : Option (List Char)

/-- A segment (src/maliput/utility/generate_string.cc:97-126). -/
structure Segment where
  id : List Char
  lanes : List Lane

/-- A junction (src/maliput/utility/generate_string.cc:84-127). -/
structure Junction where
  id : List Char
  segments : List Segment

/-- A road geometry; a junction can be a null pointer (src/maliput/utility/generate_string.cc:85-87). -/
structure RoadGeometry where
  id : List Char
  junctions : List (Option Junction)

/-- `GenerateStringOptions` (include/maliput/utility/generate_string.h:40-51). -/
structure Options where
  labels : Bool
  geometry : Bool
  junctions : Bool
  segments : Bool
  lanes : Bool
  details : Bool

/-- `IndentLevels` (src/maliput/utility/generate_string.cc:45-49). -/
structure Indents where
  junction : Nat
  segment : Nat
  lane : Nat

/-- `ComputeIndentLevels` (src/maliput/utility/generate_string.cc:51-66). -/
def indents (o : Options) : Indents :=
  let a : Indents := ⟨0, 0, 0⟩
  let b : Indents := if o.segments then { a with lane := a.lane + 1 } else a
  let c : Indents := if o.junctions then { b with segment := b.segment + 1, lane := b.lane + 1 } else b
  if o.geometry then ⟨c.junction + 1, c.segment + 1, c.lane + 1⟩ else c

/-- `GetIndent` (src/maliput/utility/generate_string.cc:68). -/
def indent (n : Nat) : List Char := List.replicate (n * 2) ' '

/-- The lines of the details of a lane (src/maliput/utility/generate_string.cc:114-124). -/
def detailText (start : List Char) (l : Lane) : List Char :=
  start ++ "  length: ".toList ++ l.length ++ ['\n'] ++
  start ++ "  geo positions:".toList ++ ['\n'] ++
  start ++ "    s_min: ".toList ++ l.start ++ ['\n'] ++
  start ++ "    s_max: ".toList ++ l.finish ++ ['\n'] ++
  start ++ "  to left: ".toList ++ l.left.getD [] ++ ['\n'] ++
  start ++ "  to right: ".toList ++ l.right.getD [] ++ ['\n']

/-- The loop over lanes (src/maliput/utility/generate_string.cc:107-125). -/
def laneTexts (o : Options) (result : List Char) : List Lane → List Char
  | [] => result
  | l :: ls =>
    let start := indent (indents o).lane
    let result := result ++ start
    let result := if o.labels then result ++ "lane: ".toList else result
    let result := result ++ l.id ++ ['\n']
    let result := if o.details then result ++ detailText start l else result
    laneTexts o result ls

/-- The loop over segments (src/maliput/utility/generate_string.cc:96-127). -/
def segmentTexts (o : Options) (result : List Char) : List Segment → List Char
  | [] => result
  | s :: ss =>
    let result :=
      if o.segments then
        let result := result ++ indent (indents o).segment
        let result := if o.labels then result ++ "segment: ".toList else result
        result ++ s.id ++ ['\n']
      else result
    let result := if o.lanes then laneTexts o result s.lanes else result
    segmentTexts o result ss

/-- The loop over junctions (src/maliput/utility/generate_string.cc:83-128). -/
def junctionTexts (o : Options) (result : List Char) : List (Option Junction) → List Char
  | [] => result
  | none :: js => junctionTexts o result js
  | some j :: js =>
    let result :=
      if o.junctions then
        let result := result ++ indent (indents o).junction
        let result := if o.labels then result ++ "junction: ".toList else result
        result ++ j.id ++ ['\n']
      else result
    junctionTexts o (segmentTexts o result j.segments) js

/-- `GenerateString` (src/maliput/utility/generate_string.cc:72-131). -/
def generateString (o : Options) (g : RoadGeometry) : List Char :=
  let result : List Char :=
    if o.geometry then
      let result := if o.labels then "geometry: ".toList else []
      result ++ g.id ++ ['\n']
    else []
  let s := junctionTexts o result g.junctions
  if 0 < s.length then s.take (s.length - 1) else s

end Maliput.RoadText
