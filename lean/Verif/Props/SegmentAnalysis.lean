import Verif.Lemmas.SegmentAnalysis
import Verif.Props.BranchPoint

set_option autoImplicit false

/-! Property C35: connected components of segments. -/
namespace Maliput.Props

open Maliput.SegmentAnalysis Maliput.SegmentAnalysis.Spec
open Maliput.Topo (LaneEnd Which Topology getConfluent getBranchPoint)
open Maliput.RouteGraph (Stop)

theorem complete_sound {net : Net} {t : Topology} (h : Complete net t) : Sound net := by
  refine ⟨fun x lane w hl => ?_, h.listed⟩
  have hseg := (h.segment lane x).2 hl
  obtain ⟨bp, hbp⟩ := Option.ne_none_iff_exists'.1 (h.attached lane x w hseg)
  rw [h.confluent]
  rcases (branchPoint_consistent h.built).sides _ _ hbp with ⟨h1, -⟩ | ⟨h1, -⟩ <;> rw [h1] <;> exact ⟨_, rfl⟩

theorem complete_confluent {net : Net} {t : Topology} (h : Complete net t) (x y : Nat) (hxy : Confluent net x y) :
    Confluent net y x ∧ Confluent net x x := by
  obtain ⟨lane, w, c, le, h1, h2, h3, h4⟩ := hxy
  have hc := branchPoint_consistent h.built
  rw [h.confluent] at h2
  rcases hg : getConfluent t ⟨lane, w⟩ with e | c'
  · rw [hg] at h2; cases h2
  · rw [hg] at h2
    simp only [Except.map, Except.ok.injEq, Option.some.injEq] at h2
    subst h2
    have hs := hc.self _ _ hg
    have hx := (h.segment lane x).2 h1
    refine ⟨⟨le.lane, le.which, c', ⟨lane, w⟩, (h.segment _ _).1 h4, ?_, hs, hx⟩,
      ⟨lane, w, c', ⟨lane, w⟩, h1, ?_, hs, hx⟩⟩
    · rw [h.confluent, (hc.same _ _ _ hg h3).1]; rfl
    · rw [h.confluent, hg]; rfl

/-- C35: `FindConfluentSegments` returns the segments that are linked with the given one through a chain of confluent
lanes, of length one at least. -/
theorem findConfluent_reachable {net : Net} {t : Topology} (h : Complete net t) (seed : Nat) :
    ∃ c, findConfluentSegments net seed = .ok c ∧ c.Nodup ∧ (∀ x, x ∈ c ↔ Relation.TransGen (Confluent net) seed x) ∧
      (seed ∈ c ↔ net.lanes seed ≠ []) := by
  obtain ⟨c, h1, h2, h3⟩ := findConfluent_spec (complete_sound h) seed
  refine ⟨c, h1, h2, h3, ?_⟩
  rw [h3]
  constructor
  · intro ht he
    obtain ⟨y, ⟨lane, w, c, le, hl, -⟩, -⟩ := Relation.TransGen.head'_iff.1 ht
    rw [he] at hl; cases hl
  · intro hne
    obtain ⟨o, ho⟩ := List.exists_mem_of_ne_nil _ hne
    rcases o with _ | lane
    · exact absurd ho (h.notNull seed)
    · have hseg := (h.segment lane seed).2 ho
      obtain ⟨c', hc'⟩ := (complete_sound h).defined seed lane .start ho
      have hcf := hc'
      rw [h.confluent] at hc'
      rcases hg : getConfluent t ⟨lane, .start⟩ with e | c''
      · rw [hg] at hc'; cases hc'
      · rw [hg] at hc'
        cases hc'
        exact .single ⟨lane, .start, c'', ⟨lane, .start⟩, ho, hcf, (branchPoint_consistent h.built).self _ _ hg, hseg⟩

/-- C35: `AnalyzeConfluentSegments` returns disjoint sets; each segment that has a lane is in exactly one of them; two
segments with lanes are in the same set exactly if they are linked by a chain of confluent lanes; and the sets hold
nothing but segments of the road geometry that have lanes. -/
theorem analyzeConfluent_components {net : Net} {t : Topology} (h : Complete net t) :
    ∃ cs, analyzeConfluentSegments net = .ok cs ∧ cs.Pairwise List.Disjoint ∧ (∀ c ∈ cs, c.Nodup) ∧
      (∀ x, (∃ c ∈ cs, x ∈ c) ↔ x ∈ net.segments ∧ net.lanes x ≠ []) ∧
      ∀ c ∈ cs, ∀ x ∈ c, ∀ y, y ∈ c ↔ Relation.ReflTransGen (Confluent net) x y := by
  have hsound := complete_sound h
  have hsymm : ∀ x y, Confluent net x y → Confluent net y x := fun x y hxy => (complete_confluent h x y hxy).1
  have tsymm : ∀ x y, Relation.TransGen (Confluent net) x y → Relation.TransGen (Confluent net) y x := by
    intro x y h
    induction h with
    | single h => exact .single (hsymm _ _ h)
    | tail _ h ih => exact Relation.TransGen.head (hsymm _ _ h) ih
  have hself : ∀ x, net.lanes x ≠ [] → Confluent net x x := by
    intro x hx
    obtain ⟨c, -, -, h3, h4⟩ := findConfluent_reachable h x
    obtain ⟨y, hy, -⟩ := Relation.TransGen.head'_iff.1 ((h3 x).1 (h4.2 hx))
    exact (complete_confluent h x y hy).2
  have hlanes : ∀ x y, Confluent net x y → net.lanes x ≠ [] := by
    rintro x y ⟨lane, w, c, le, hl, -⟩ he
    rw [he] at hl; cases hl
  obtain ⟨cs, h1, h2, h3, h4, h5⟩ := components_spec hsound hsymm net.segments [] (by simp)
  refine ⟨cs, h1, h4, fun c hc => (h3 c hc).1, ?_, ?_⟩
  · intro x
    constructor
    · rintro ⟨c, hc, hx⟩
      obtain ⟨seed, hseed, hm⟩ := h2 c hc
      have ht := (hm x).1 hx
      obtain ⟨y, -, hyx⟩ := Relation.TransGen.tail'_iff.1 ht
      have hxy := hsymm _ _ hyx
      refine ⟨?_, hlanes x y hxy⟩
      obtain ⟨lane, w, c, le, -, -, -, hl⟩ := hyx
      exact h.listed _ _ hl
    · rintro ⟨hx, hl⟩
      rcases h5 x hx ⟨x, hself x hl⟩ with h | h
      · cases h
      · exact h
  · intro c hc x hx y
    obtain ⟨seed, hseed, hm⟩ := h2 c hc
    have hsx := (hm x).1 hx
    rw [hm]
    constructor
    · intro hy
      exact ((tsymm _ _ hsx).trans hy).to_reflTransGen
    · intro hxy
      exact Relation.TransGen.trans_left hsx hxy

/-- The documentation says that the result includes the given segment itself: it is false for a segment without lanes,
for which nothing is returned, and `AnalyzeConfluentSegments` returns an empty set for it. -/
theorem findConfluent_without_lanes (net : Net) (seed : Nat) (h : net.lanes seed = []) (hs : net.segments = [seed]) :
    findConfluentSegments net seed = .ok [] ∧ analyzeConfluentSegments net = .ok [[]] := by
  have hf : findConfluentSegments net seed = .ok [] := by
    simp only [findConfluentSegments, hs, List.length_singleton, work, h, markLanes, RouteGraph.lift, bind, Except.bind]
  refine ⟨hf, ?_⟩
  simp only [analyzeConfluentSegments, hs, components, List.not_mem_nil, if_false, hf, bind, Except.bind]
  rfl

/-- A lane end without a branch point, which the geometry base allows until the road geometry is complete, makes the
functions dereference a null pointer. -/
theorem findConfluent_unattached (net : Net) (t : Topology) (seed lane : Nat) (rest : List (Option Nat))
    (hc : ∀ le, net.confluent le = (getConfluent t le).map some) (hl : net.lanes seed = some lane :: rest)
    (h : getBranchPoint t ⟨lane, .start⟩ = none) : findConfluentSegments net seed = .error (.err .ub) := by
  have hu : net.confluent ⟨lane, .start⟩ = .error .ub := by
    rw [hc, getConfluent]
    simp only [getBranchPoint] at h
    rw [h]
    rfl
  simp only [findConfluentSegments, work, hl, markLanes, markEnds, hu, RouteGraph.lift, bind, Except.bind]

/-! Three segments with one lane each: two of them merge at a branch point, and all of them are joined in a ring. -/

/-- The calls that connect three lanes. -/
def mergeOps : List Topo.Op :=
  [.addBranch 0 .a (some 0) .finish, .addBranch 0 .a (some 1) .finish, .addBranch 0 .b (some 2) .start,
   .addBranch 1 .a (some 2) .finish, .addBranch 1 .b (some 0) .start, .addBranch 2 .a (some 1) .start]

/-- The road geometry of the three segments. -/
def mergeNet : Net where
  junctions := [some [0, 1], none, some [2]]
  lanes x := if x < 3 then [some x] else []
  confluent le := (getConfluent (Topo.run .init mergeOps) le).map some
  segment l := if l < 3 then some l else none

example : Complete mergeNet (Topo.run .init mergeOps) where
  built := Topo.built_run _ _ .init (by decide)
  confluent _ := rfl
  notNull x := by simp only [mergeNet]; split <;> simp
  segment lane x := by
    simp only [mergeNet]
    split <;> split <;> simp <;> omega
  listed lane x h := by
    have : x < 3 := by
      simp only [mergeNet] at h
      split at h <;> simp at h
      omega
    have hs : mergeNet.segments = [0, 1, 2] := rfl
    rw [hs]
    simp only [List.mem_cons, List.not_mem_nil, or_false]
    omega
  attached lane x w h := by
    have : lane < 3 := by
      simp only [mergeNet] at h
      by_contra hc
      rw [if_neg hc] at h
      cases h
    have hl : lane = 0 ∨ lane = 1 ∨ lane = 2 := by omega
    rcases hl with rfl | rfl | rfl <;> cases w <;> decide

example : findConfluentSegments mergeNet 0 = .ok [0, 1] ∧ analyzeConfluentSegments mergeNet = .ok [[0, 1], [2]] := by
  decide +kernel

end Maliput.Props
