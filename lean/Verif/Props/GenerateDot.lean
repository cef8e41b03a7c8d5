import Verif.Lemmas.GenerateDot

set_option autoImplicit false

/-!
# C121: the graph of a road network in the DOT language
-/
namespace Maliput.Props

open Dot Dot.Spec

/-- **C121** (partial: for ids which can be written).  What is written of a graph reads as exactly its edges, each once, with their
nodes and the ids of their segments, none of them red; a null stream is refused. -/
theorem graph_drawn_partial (es : List Edge) (h : ∀ e ∈ es, Writable e) :
    (∃ text, generateDot es true = .ok text ∧ readGraph text = some (es.map fun e => ⟨e.nodeA, e.nodeB, e.label, false⟩)) ∧
    generateDot es false = .error .throws :=
  ⟨⟨_, rfl, by rw [edgeTexts_eq]; exact read_lines es (fun _ => false) h⟩, rfl⟩

/-- **C121** (partial: for ids which can be written).  With a route, each of whose phases has a start position, the call throws exactly
when the first start position of some phase is on a segment of no edge; otherwise the text reads as exactly the edges, and red are those
whose segment is that of the first start position of some phase. -/
theorem route_drawn_partial (es : List Edge) (route : List (List Nat)) (h : ∀ e ∈ es, Writable e) (phases : ∀ p ∈ route, p ≠ []) :
    ((∃ p ∈ route, ∃ s, p.head? = some s ∧ ∀ e ∈ es, e.segment ≠ s) → generateRouteDot es route true = .error .throws) ∧
    ((∀ p ∈ route, ∀ s, p.head? = some s → ∃ e ∈ es, e.segment = s) → ∃ text, generateRouteDot es route true = .ok text ∧
      readGraph text = some (es.map fun e => ⟨e.nodeA, e.nodeB, e.label, decide (∃ p ∈ route, p.head? = some e.segment)⟩)) ∧
    generateRouteDot es route false = .error .throws := by
  refine ⟨?_, ?_, rfl⟩
  · rintro ⟨p, hp, s, hs, hn⟩
    rcases routeSegments_complete es route phases with ⟨segs, hr⟩ | ⟨hr, -⟩
    · obtain ⟨i1, i2⟩ := routeSegments_ok es route segs hr
      have : some s ∈ segs.map some := by rw [← i1, ← hs]; exact List.mem_map_of_mem hp
      obtain ⟨s', hs', heq⟩ := List.mem_map.mp this
      cases heq
      obtain ⟨e, he, heq⟩ := i2 s hs'
      exact absurd heq (hn e he)
    · simp [generateRouteDot, throwUnless, bind, Except.bind, hr]
  · intro hall
    rcases routeSegments_complete es route phases with ⟨segs, hr⟩ | ⟨-, p, hp, s, hs, hn⟩
    · obtain ⟨i1, -⟩ := routeSegments_ok es route segs hr
      refine ⟨_, by simp only [generateRouteDot, throwUnless, bind, Except.bind, hr]; rfl, ?_⟩
      rw [routeTexts_eq, read_lines es (fun e => segs.contains e.segment) h]
      congr 1
      refine List.map_congr_left fun e _ => ?_
      congr 1
      rw [Bool.eq_iff_iff, decide_eq_true_iff, List.contains_iff_mem]
      constructor
      · intro hm
        have : some e.segment ∈ route.map List.head? := by rw [i1]; exact List.mem_map_of_mem hm
        obtain ⟨p, hp, heq⟩ := List.mem_map.mp this
        exact ⟨p, hp, heq⟩
      · rintro ⟨p, hp, heq⟩
        have : some e.segment ∈ segs.map some := by rw [← i1, ← heq]; exact List.mem_map_of_mem hp
        obtain ⟨s, hs, heq⟩ := List.mem_map.mp this
        cases heq
        exact hs
    · obtain ⟨e, he, heq⟩ := hall p hp s hs
      exact absurd heq (hn e he)

/-- Three segments in a row. -/
def dotGraph : List Edge :=
  [⟨"0".toList, "1".toList, 7, "west".toList⟩, ⟨"1".toList, "2".toList, 8, "mid dle".toList⟩, ⟨"2".toList, "3".toList, 9, "east".toList⟩]

example : ∀ e ∈ dotGraph, Writable e := by decide

example : ∃ text, generateRouteDot dotGraph [[8, 9], [7]] true = .ok text ∧ readGraph text =
    some [⟨"0".toList, "1".toList, "west".toList, true⟩, ⟨"1".toList, "2".toList, "mid dle".toList, true⟩,
      ⟨"2".toList, "3".toList, "east".toList, false⟩] :=
  (route_drawn_partial dotGraph [[8, 9], [7]] (by decide) (by decide)).2.1
    (by
      intro p hp s hs
      simp only [List.mem_cons, List.not_mem_nil, or_false] at hp
      rcases hp with rfl | rfl <;> cases hs <;> decide)

example : generateRouteDot dotGraph [[8], [6]] true = .error .throws :=
  (route_drawn_partial dotGraph [[8], [6]] (by decide) (by decide)).1 ⟨[6], by decide, 6, rfl, by decide⟩

/-- The part which is missing is false: ids of segments are written as they are, so that a segment whose id has a quote is drawn as if it
were another segment on the route. -/
theorem quote_not_escaped : ∃ (es es' : List Edge) (route : List (List Nat)),
    generateDot es true = generateRouteDot es' route true ∧ es.map Edge.label ≠ es'.map Edge.label ∧
    (generateDot es true).toOption.bind readGraph = some [⟨['0'], ['1'], ['x'], true⟩] :=
  ⟨[⟨['0'], ['1'], 7, "x\" color = \"red".toList⟩], [⟨['0'], ['1'], 7, ['x']⟩], [[7]], by decide, by decide, by decide⟩

end Maliput.Props
