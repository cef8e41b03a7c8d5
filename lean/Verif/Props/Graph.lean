import Mathlib.Order.Basic
import Mathlib.Order.Nat
import Verif.Lemmas.Graph

set_option autoImplicit false

/-! Properties C22 and C49: the graph of segments and the edge sequences in it. -/
namespace Maliput.Props
open Maliput.RouteGraph
open Maliput.Topo (Which LaneEnd)

/-! ### C22 -/

/-- C22: on a graph that is consistent, `FindAllEdgeSequences` terminates (recursion never gets deeper than
the number of nodes), it does not throw, and it returns exactly the sequences of edges that lead from the
one node to the other, visit no node twice, and in which every two consecutive edges pass the check for
opposing sides. -/
theorem findAllEdgeSequences_exact (net : Net) {g : Graph} (hg : g.WellFormed) {start end_ : Node}
    (hs : start ∈ g.nodes) (he : end_ ∈ g.nodes) (hne : start.id ≠ end_.id) :
    ∃ r, (∀ depth ≥ g.nodes.length, findAllEdgeSequences net g depth start end_ = .ok r) ∧
      ∀ p, p ∈ r ↔ IsEdgeSequence g start.id end_.id p ∧
        p.IsChain (fun e f => fromOpposingSides net e f = .ok true) := by
  have hlen : g.nodes.length < g.nodes.length + [start.id].length := by simp
  obtain ⟨r, hr, hrs⟩ := edgeHelper_spec hg end_.id g.nodes.length start [start.id] hs (by simp) (by simp)
    (by simpa using ⟨start, hs, rfl⟩) hlen
  have hmono : ∀ depth ≥ g.nodes.length, edgeSequencesHelper g end_.id depth start [start.id] = .ok r := by
    intro d hd
    induction d, hd using Nat.le_induction with
    | base => exact hr
    | succ n _ ih => exact edgeHelper_mono ih
  have hfound : ∀ p ∈ r, IsEdgeSequence g start.id end_.id p := fun p hp => (found_iff hne p).1 ((hrs p).1 hp)
  have hfil := filterM_spec (isSequenceDrivable net)
    (fun p => p.IsChain (fun e f => fromOpposingSides net e f = .ok true)) r (by
      intro p hp
      obtain ⟨ns, hw, -, hlast⟩ := hfound p hp
      match p, hw, walk_adjacent hw with
      | [], hw, _ => cases hw; simp at hlast; exact absurd hlast hne
      | e :: rest, _, h => exact drivableLoop_total net rest e h)
  obtain ⟨r', hr', hrs'⟩ := hfil
  refine ⟨r', ?_, ?_⟩
  · intro d hd
    have h1 : g.nodes.any (fun n => n.id == start.id) = true := List.any_eq_true.2 ⟨start, hs, by simp⟩
    have h2 : g.nodes.any (fun n => n.id == end_.id) = true := List.any_eq_true.2 ⟨end_, he, by simp⟩
    unfold findAllEdgeSequences
    simp [h1, h2, hne, hmono d hd, hr', throwUnless, lift, bind, Except.bind]
  · intro p
    rw [hrs', hrs, found_iff hne]

/-- C22: a node that is not in the graph is rejected. -/
theorem findAllEdgeSequences_rejects (net : Net) (g : Graph) (start end_ : Node) (depth : Nat)
    (h : (∀ n ∈ g.nodes, n.id ≠ start.id) ∨ (∀ n ∈ g.nodes, n.id ≠ end_.id)) :
    findAllEdgeSequences net g depth start end_ = .error (.err .throws) := by
  unfold findAllEdgeSequences
  rcases h with h | h
  · have h1 : g.nodes.any (fun n => n.id == start.id) = false := by simpa using h
    simp [h1, throwUnless, lift, bind, Except.bind]
  · have h1 : g.nodes.any (fun n => n.id == end_.id) = false := by simpa using h
    rw [h1]
    cases g.nodes.any (fun n => n.id == start.id) <;> simp [throwUnless, lift, bind, Except.bind]

/-! ### C49 -/

/-- C49: the graph of a road geometry has one edge per segment, named like the segment, and is consistent. -/
theorem buildGraph_wellFormed {net : Net} (hn : net.WellFormed) {g : Graph} (h : buildGraph net = .ok g) :
    g.WellFormed ∧ g.edges.map Edge.segment = net.segments ∧ ∀ e ∈ g.edges, e.id = net.segId e.segment := by
  obtain ⟨c, hi, -⟩ := buildGraph_inv hn h
  exact ⟨hi.wf, hi.segments, hi.ids⟩

/-- C49: if at every two segment ends the branch points are the same or have nothing in common, the node
found for a lane end is the node at which the edge of its segment ends.
Missing: segment ends that have some, but not all, of their branch points in common; see
`buildGraph_loses_branchPoint`. -/
theorem findNode_partial {net : Net} (hn : net.WellFormed) (hu : UniformInterfaces net) {g : Graph}
    (h : buildGraph net = .ok g) {e : Edge} (he : e ∈ g.edges) {l : Nat} (hl : l ∈ net.segLanes e.segment)
    (w : Which) : ∃ n, findNode net g l w = some n ∧ n ∈ g.nodes ∧ n.id = e.endNode w := by
  obtain ⟨c, hi, hv⟩ := buildGraph_inv hn h
  have hv := hv hu
  have hex : ∃ n ∈ g.nodes, n.id = e.endNode w ∧ net.bp ⟨l, w⟩ ∈ n.branchPoints := by
    cases w
    · exact hv.start e he l hl
    · exact hv.finish e he l hl
  obtain ⟨n, hn', hid, hb⟩ := hex
  have hsome : (findNode net g l w).isSome := by
    unfold findNode
    rw [List.find?_isSome]
    exact ⟨n, hn', by simpa using hb⟩
  obtain ⟨m, hm⟩ := Option.isSome_iff_exists.1 hsome
  have hmm : m ∈ g.nodes := by unfold findNode at hm; exact List.mem_of_find?_eq_some hm
  have hmb : net.bp ⟨l, w⟩ ∈ m.branchPoints := by
    unfold findNode at hm
    simpa using List.find?_some hm
  exact ⟨m, hm, hmm, by rw [← hid]; exact hv.disjoint m hmm n hn' _ hmb hb⟩

/-! ### C22, drivability -/

/-- C22: the check for opposing sides of two segments that meet at one place only holds exactly if
lanes of the two segments are attached to a branch point on different sides.
Missing: segments that are attached on the same side at one branch point and on different sides at another
(then only one branch point is inspected, see `findAllEdgeSequences_misses`), or that meet at two places. -/
theorem fromOpposingSides_partial {net : Net} (hn : net.WellFormed) {e f : Edge} (hi : OneInterface net e f)
    (hadj : ∃ w w', e.endNode w = f.endNode w') :
    fromOpposingSides net e f = .ok true ↔ Opposing net e.segment f.segment := by
  obtain ⟨w, w', h⟩ := hadj
  exact fromOpposingSides_iff hn hi (adjacent_of_endNode h)

/-- C22 on the graph of a road geometry: exactly the sequences of edges that lead from the one node to the
other, visit no node twice, and in which consecutive segments have lanes attached to a branch point on
opposing sides.
Missing: segment ends that share some but not all of their branch points, and segments whose shared branch
points disagree on the sides (`findAllEdgeSequences_misses`). -/
theorem findAllEdgeSequences_partial {net : Net} (hn : net.WellFormed) (hu : UniformInterfaces net)
    (ha : ∀ s t, s ≠ t → SidesAgree net s t)
    {g : Graph} (h : buildGraph net = .ok g) {start end_ : Node}
    (hs : start ∈ g.nodes) (he : end_ ∈ g.nodes) (hne : start.id ≠ end_.id) :
    ∃ r, (∀ depth ≥ g.nodes.length, findAllEdgeSequences net g depth start end_ = .ok r) ∧
      ∀ p, p ∈ r ↔ IsEdgeSequence g start.id end_.id p ∧
        p.IsChain (fun e f => Opposing net e.segment f.segment) := by
  obtain ⟨hg, hsegs, hids⟩ := buildGraph_wellFormed hn h
  obtain ⟨r, hr, hrs⟩ := findAllEdgeSequences_exact net hg hs he hne
  refine ⟨r, hr, fun p => ?_⟩
  rw [hrs]
  refine and_congr_right ?_
  rintro ⟨ns, hw, hnd, -⟩
  refine isChain_congr ?_ p (walk_single hw hnd)
  rintro e f ⟨hem, hfm, hef, hadj, hsingle⟩
  refine fromOpposingSides_iff hn ⟨?_, hsingle, ha _ _ ?_⟩ hadj
  · rintro ⟨l, w⟩ ⟨l', w'⟩ ⟨hl, hl', hb⟩
    obtain ⟨n, hn1, -, hn2⟩ := findNode_partial hn hu h hem hl w
    obtain ⟨m, hm1, -, hm2⟩ := findNode_partial hn hu h hfm hl' w'
    have hb' : net.bp ⟨l, w⟩ = net.bp ⟨l', w'⟩ := hb
    have : findNode net g l w = findNode net g l' w' := by unfold findNode; rw [hb']
    rw [this, hm1, Option.some.injEq] at hn1
    change e.endNode w = f.endNode w'
    rw [← hn2, ← hm2, hn1]
  · intro hseg
    exact hef (nodup_map_inj hg.edgeIds hem hfm (by rw [hids e hem, hids f hfm, hseg]))

/-! ### Examples and witnesses -/

/-- Three segments in a row, of two lanes each, `2` runs the other way;
segments `0` and `1` are joined at branch points `2`, `3`. -/
def rowNet : Net where
  segments := [0, 1, 2]
  segId s := if s = 0 then "a" else if s = 1 then "b" else "c"
  segLanes s := if s = 0 then [0, 1] else if s = 1 then [2, 3] else if s = 2 then [4, 5] else []
  laneSeg l := if l ≤ 1 then 0 else if l ≤ 3 then 1 else 2
  bp le := match le.lane, le.which with
    | 0, .start => 0 | 1, .start => 1 | 0, .finish => 2 | 1, .finish => 3
    | 2, .start => 2 | 3, .start => 3 | 2, .finish => 4 | 3, .finish => 5
    | 4, .start => 6 | 5, .start => 7 | 4, .finish => 4 | 5, .finish => 5 | _, _ => 100
  aSide b := match b with
    | 0 => [⟨0, .start⟩] | 1 => [⟨1, .start⟩] | 2 => [⟨0, .finish⟩] | 3 => [⟨1, .finish⟩]
    | 4 => [⟨2, .finish⟩] | 5 => [⟨3, .finish⟩] | 6 => [⟨4, .start⟩] | 7 => [⟨5, .start⟩] | _ => []

/-- Its graph. -/
def rowGraph : Graph where
  edges := [⟨"a", 0, 0, 1⟩, ⟨"b", 1, 1, 2⟩, ⟨"c", 2, 3, 2⟩]
  nodes := [⟨0, [0, 1], ["a"]⟩, ⟨1, [2, 3], ["a", "b"]⟩, ⟨2, [4, 5], ["b", "c"]⟩, ⟨3, [6, 7], ["c"]⟩]

example : buildGraph rowNet = .ok rowGraph := by decide +kernel

example : findAllEdgeSequences rowNet rowGraph 4 ⟨0, [0, 1], ["a"]⟩ ⟨3, [6, 7], ["c"]⟩ =
    .ok [[⟨"a", 0, 0, 1⟩, ⟨"b", 1, 1, 2⟩, ⟨"c", 2, 3, 2⟩]] := by decide +kernel

theorem rowNet_wellFormed : rowNet.WellFormed := by
  refine ⟨by decide, by decide, ?_, ?_, ?_⟩
  · intro s l h
    simp only [rowNet] at h ⊢
    repeat' split at h
    all_goals (simp at h; try (rcases h with rfl | rfl))
    all_goals simp_all
  · intro b le h
    simp only [rowNet] at h ⊢
    repeat' split at h
    all_goals simp at h
    all_goals (subst h; simp)
  · intro b le h
    simp only [rowNet] at h ⊢
    repeat' split at h
    all_goals simp at h
    all_goals (subst h; simp)

theorem rowNet_uniform : UniformInterfaces rowNet := by
  constructor
  · intro s hs t ht w v
    simp only [rowNet, List.mem_cons, List.not_mem_nil, or_false] at hs ht
    rcases hs with rfl | rfl | rfl <;> rcases ht with rfl | rfl | rfl <;> cases w <;> cases v <;>
      simp [rowNet]
  · decide

theorem rowNet_agree : ∀ s t, s ≠ t → SidesAgree rowNet s t := by
  rintro s t hst ⟨l, w⟩ ⟨l', w'⟩ ⟨m, v⟩ ⟨m', v'⟩ ⟨h1, h2, h3⟩ ⟨h4, h5, h6⟩
  have hsh : ∀ l l' w w', l ∈ rowNet.segLanes s → l' ∈ rowNet.segLanes t → rowNet.bp ⟨l, w⟩ = rowNet.bp ⟨l', w'⟩ →
      ¬((⟨l, w⟩ : LaneEnd) ∈ rowNet.aSide (rowNet.bp ⟨l, w⟩) ↔ (⟨l', w'⟩ : LaneEnd) ∈ rowNet.aSide (rowNet.bp ⟨l, w⟩)) := by
    intro l l' w w' h1 h2 h3
    simp only [rowNet] at h1 h2
    split_ifs at h1 h2 <;> simp at h1 h2 <;> (first | omega | skip)
    all_goals (rcases h1 with rfl | rfl) <;> (try rcases h2 with rfl | rfl) <;>
      cases w <;> cases w' <;> revert h3 <;> decide
  have a := hsh _ _ _ _ h1 h2 h3
  have b := hsh _ _ _ _ h4 h5 h6
  exact ⟨fun h => absurd h a, fun h => absurd h b⟩

/-- The hypotheses of `findAllEdgeSequences_partial` are met by the row. -/
example : ∃ r, (∀ depth ≥ 4, findAllEdgeSequences rowNet rowGraph depth ⟨0, [0, 1], ["a"]⟩ ⟨3, [6, 7], ["c"]⟩ = .ok r) ∧
    ∀ p, p ∈ r ↔ IsEdgeSequence rowGraph 0 3 p ∧ p.IsChain (fun e f => Opposing rowNet e.segment f.segment) :=
  findAllEdgeSequences_partial (g := rowGraph) (start := ⟨0, [0, 1], ["a"]⟩) (end_ := ⟨3, [6, 7], ["c"]⟩)
    rowNet_wellFormed rowNet_uniform rowNet_agree (by decide +kernel) (by decide) (by decide) (by decide)

/-- The row when lane `2` is attached on the same side as lane `0`; lanes `1` and `3` are as before. -/
def mixedNet : Net :=
  { rowNet with aSide := fun b => if b = 2 then [⟨0, .finish⟩, ⟨2, .start⟩] else rowNet.aSide b }

/-- C22: without the hypothesis on sides the claim is false: one can drive from lane `1` to lane `3`, but
the sequence of their segments is not returned. -/
theorem findAllEdgeSequences_misses :
    buildGraph mixedNet = .ok rowGraph ∧
    findAllEdgeSequences mixedNet rowGraph 4 ⟨0, [0, 1], ["a"]⟩ ⟨2, [4, 5], ["b", "c"]⟩ = .ok [] ∧
    IsEdgeSequence rowGraph 0 2 [⟨"a", 0, 0, 1⟩, ⟨"b", 1, 1, 2⟩] ∧ Opposing mixedNet 0 1 := by
  refine ⟨by decide +kernel, by decide +kernel, ?_, ?_⟩
  · exact ⟨[0, 1, 2], .cons (y := 1) (by decide) (.inl ⟨rfl, rfl⟩) (.cons (y := 2) (by decide) (.inl ⟨rfl, rfl⟩) (.nil 2)), by decide, by decide⟩
  · exact ⟨⟨1, .finish⟩, ⟨3, .start⟩, by decide, by decide, by decide, by decide⟩

/-- A segment of one lane that continues into a segment of two lanes at branch point `1`; the second lane
of the latter starts at branch point `2`. -/
def forkNet : Net where
  segments := [0, 1]
  segId s := if s = 0 then "a" else "b"
  segLanes s := if s = 0 then [0] else if s = 1 then [1, 2] else []
  laneSeg l := if l = 0 then 0 else 1
  bp le := match le.lane, le.which with
    | 0, .start => 0 | 0, .finish => 1
    | 1, .start => 1 | 1, .finish => 3 | 2, .start => 2 | 2, .finish => 4 | _, _ => 100
  aSide b := match b with
    | 0 => [⟨0, .start⟩] | 1 => [⟨0, .finish⟩] | 2 => [⟨2, .start⟩] | 3 => [⟨1, .finish⟩] | 4 => [⟨2, .finish⟩] | _ => []

/-- C49 in general is false: the branch point at the start of lane `2` is in no node of the graph. -/
theorem buildGraph_loses_branchPoint :
    ∃ g, buildGraph forkNet = .ok g ∧ 2 ∈ forkNet.segLanes 1 ∧ 1 ∈ forkNet.segments ∧
      findNode forkNet g 2 .start = none := by
  refine ⟨⟨[⟨"a", 0, 0, 1⟩, ⟨"b", 1, 1, 2⟩], [⟨0, [0], ["a"]⟩, ⟨1, [1], ["a", "b"]⟩, ⟨2, [3, 4], ["b"]⟩]⟩, ?_⟩
  decide +kernel

end Maliput.Props
