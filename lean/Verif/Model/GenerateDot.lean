import Verif.Model.Basic

set_option autoImplicit false

/-!
Model of src/maliput/utility/generate_dot.cc: graphs in the DOT language.  Texts are lists of characters; the stream is what is
written to it.
-/
namespace Maliput.Dot

/-- `routing::graph::Edge`, include/maliput/routing/graph/graph.h:53-62: the ids of its nodes, its segment (an address) and the id
of its segment. -/
structure Edge where
  nodeA : List Char
  nodeB : List Char
  segment : Nat
  label : List Char
  deriving DecidableEq, Repr

/-- The text of an edge up to its label, src/maliput/utility/generate_dot.cc:44-45 and 65-66. -/
def edgeText (e : Edge) : List Char :=
  e.nodeA ++ " -- ".toList ++ e.nodeB ++ " [ label = \"".toList ++ e.label

/-- The loop of `GenerateDotStream(graph, os)`, src/maliput/utility/generate_dot.cc:43-46, over the edges in the order of the map. -/
def edgeTexts : List Edge → List Char
  | [] => []
  | e :: es => edgeText e ++ "\" ];\n".toList ++ edgeTexts es

/-- `GenerateDotStream(graph, os)`, src/maliput/utility/generate_dot.cc:39-49; `os` tells whether the stream is not null.  Gives what
is written. -/
def generateDot (es : List Edge) (os : Bool) : Except Err (List Char) := do
  throwUnless os
  return "graph {\n".toList ++ edgeTexts es ++ "}\n".toList

/-- The first loop of `GenerateDotStream(graph, route, os)`, src/maliput/utility/generate_dot.cc:54-61.  A phase is given by the
segments of the lanes of its start positions; `front()` of an empty vector is undefined. -/
def routeSegments (es : List Edge) : List (List Nat) → Except Err (List Nat)
  | [] => .ok []
  | phase :: phases => do
    let segment ← (match phase with
      | [] => .error .ub
      | s :: _ => .ok s)
    throwUnless (es.any fun e => e.segment == segment)
    let segments ← routeSegments es phases
    return segment :: segments

/-- The second loop, src/maliput/utility/generate_dot.cc:64-72. -/
def routeTexts (segments : List Nat) : List Edge → List Char
  | [] => []
  | e :: es =>
    edgeText e ++ "\"".toList ++ (if segments.contains e.segment then " color = \"red\"".toList else []) ++ " ];\n".toList ++
      routeTexts segments es

/-- `GenerateDotStream(graph, route, os)`, src/maliput/utility/generate_dot.cc:51-75.  Gives what is written: nothing is written
before the last `throw`. -/
def generateRouteDot (es : List Edge) (route : List (List Nat)) (os : Bool) : Except Err (List Char) := do
  throwUnless os
  let segments ← routeSegments es route
  return "graph {\n".toList ++ routeTexts segments es ++ "}\n".toList

end Maliput.Dot
