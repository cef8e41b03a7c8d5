import Verif.Lemmas.LaneSequences

set_option autoImplicit false

/-! Properties C19, C20, C21. -/
namespace Maliput.Props
open Maliput.Topo Maliput.Routing

/-- C19: `FindLaneSequences` terminates (some recursion depth suffices) and returns exactly the lane
sequences; the lane alone if both lanes are the same. -/
theorem findLaneSequences_exact {g : LaneGraph} (hg : g.WellFormed) {start end_ : Nat} (hstart : start ∈ g.lanes)
    (hend : end_ ∈ g.lanes) (maxLength : ℚ) :
    ∃ r, (∀ depth, g.lanes.length ≤ depth → findLaneSequences g depth start end_ maxLength = some r) ∧
      (start = end_ → r = [[start]]) ∧
      (start ≠ end_ → ∀ p, p ∈ r ↔ IsLaneSequence g start end_ maxLength p) := by
  by_cases hne : start = end_
  · subst hne
    exact ⟨[[start]], fun _ _ => by simp [findLaneSequences], fun _ => rfl, fun h => absurd rfl h⟩
  · have hid : g.id start ≠ g.id end_ := fun h => hne (hg.idInjective _ hstart _ hend h)
    have H := fun depth (hd : g.lanes.length ≤ depth) =>
      helper_spec hg hend maxLength depth start [start] 0 hstart (by simp) (by simpa using hstart) (by simp; omega)
    obtain ⟨r, hr, hrs⟩ := H g.lanes.length (Nat.le_refl _)
    have hmono : ∀ depth, g.lanes.length ≤ depth →
        findLaneSequencesHelper g end_ maxLength depth start [start] 0 = some r := by
      intro depth hd
      induction depth, hd using Nat.le_induction with
      | base => exact hr
      | succ n _ ih => exact helper_mono ih
    exact ⟨r, fun depth hd => by rw [findLaneSequences, if_neg hid, hmono depth hd], fun h => absurd h hne,
      fun _ p => by rw [hrs, found_iff g hne]⟩

/-- Road geometries for the examples: four lanes of length 10, and the list of joined lane ends. -/
def demoLaneGraph (joins : List (LaneEnd × LaneEnd)) : LaneGraph where
  lanes := [0, 1, 2, 3]
  id := fun n => ["A", "B", "C", "D"].getD n "E"
  length := fun _ => 10
  ongoing := fun le => (joins.filter (fun j => j.1 == le)).map Prod.snd

/-- The joins of a list of connections, in both directions. -/
def bothWays (joins : List (LaneEnd × LaneEnd)) : List (LaneEnd × LaneEnd) := joins ++ joins.map Prod.swap

theorem demoLaneGraph_mem {joins : List (LaneEnd × LaneEnd)} {le le' : LaneEnd} :
    le' ∈ (demoLaneGraph joins).ongoing le ↔ (le, le') ∈ joins := by
  simp [demoLaneGraph]

theorem demoLaneGraph_wellFormed {joins : List (LaneEnd × LaneEnd)} (h : ∀ j ∈ joins, j.2.lane ∈ [0, 1, 2, 3]) :
    (demoLaneGraph joins).WellFormed where
  lanesNodup := by simp [demoLaneGraph]
  closed := fun _ _ _ le' hm => h _ (demoLaneGraph_mem.1 hm)
  idInjective := by simp only [demoLaneGraph]; decide
  lengthNonneg := fun _ => by simp [demoLaneGraph]

theorem demoLaneGraph_symmetric (joins : List (LaneEnd × LaneEnd)) :
    SymmetricBranches (demoLaneGraph (bothWays joins)) := by
  intro le le' h
  rw [demoLaneGraph_mem] at *
  simp only [bothWays, List.mem_append, List.mem_map] at *
  rcases h with h | ⟨⟨x, y⟩, h, h'⟩
  · exact .inr ⟨_, h, rfl⟩
  · simp only [Prod.swap_prod_mk, Prod.mk.injEq] at h'
    obtain ⟨rfl, rfl⟩ := h'
    exact .inl h

theorem demoLaneGraph_uniform {joins : List (LaneEnd × LaneEnd)} (h : ∀ j ∈ joins, j.2.which ≠ j.1.which) :
    UniformDirection (demoLaneGraph joins) := fun _ _ hm => h _ (demoLaneGraph_mem.1 hm)

theorem demoLaneGraph_noDoubleJoin {joins : List (LaneEnd × LaneEnd)}
    (h : ∀ j ∈ joins, ∀ k ∈ joins, j.1.lane = k.1.lane → j.2.lane = k.2.lane → j.1.which = k.1.which) :
    NoDoubleJoin (demoLaneGraph joins) := by
  rintro a b ⟨⟨w, h1⟩, ⟨w', h2⟩⟩
  have := h _ (demoLaneGraph_mem.1 h1) _ (demoLaneGraph_mem.1 h2) rfl rfl
  simp at this

/-- The finish of A forks into B and C, which join at the start of D. -/
def diamond : List (LaneEnd × LaneEnd) :=
  bothWays [(⟨0, .finish⟩, ⟨1, .start⟩), (⟨0, .finish⟩, ⟨2, .start⟩), (⟨1, .finish⟩, ⟨3, .start⟩),
    (⟨2, .finish⟩, ⟨3, .start⟩)]

example : (demoLaneGraph diamond).WellFormed := demoLaneGraph_wellFormed (by decide)
example : findLaneSequences (demoLaneGraph diamond) 4 0 3 10 = some [[0, 1, 3], [0, 2, 3]] := by decide +kernel
example : findLaneSequences (demoLaneGraph diamond) 4 0 3 9 = some [] := by decide +kernel
/-- The first of these sequences enters and leaves D through its start. -/
example : findLaneSequences (demoLaneGraph diamond) 4 0 2 100 = some [[0, 1, 3, 2], [0, 2]] := by decide +kernel

/-- A sequence is returned twice if two lanes are joined at both ends. -/
theorem findLaneSequences_duplicates :
    findLaneSequences (demoLaneGraph (bothWays [(⟨0, .finish⟩, ⟨1, .start⟩), (⟨1, .finish⟩, ⟨0, .start⟩)])) 4 0 1 10 =
      some [[0, 1], [0, 1]] := by decide +kernel

/-- C20, for roads whose connections join the finish of a lane to the start of another and that do not
join a lane to the same lane at both ends: exactly the sequences without U-turn are returned.  Missing:
roads with mixed lane directions, for which it is false (`findLaneSequences_rejects_straight`,
`findLaneSequences_accepts_uTurn`), and lanes joined at both ends. -/
theorem findLaneSequences_noUTurn_partial {g : LaneGraph} (hg : g.WellFormed) (hu : UniformDirection g)
    (hd : NoDoubleJoin g) {start end_ : Nat} (hstart : start ∈ g.lanes) (hend : end_ ∈ g.lanes)
    (hne : start ≠ end_) (maxLength : ℚ) :
    ∃ r, (∀ depth, g.lanes.length ≤ depth →
        findLaneSequencesUTurn g depth start end_ maxLength true = some (.ok r)) ∧
      ∀ p, p ∈ r ↔ IsLaneSequence g start end_ maxLength p ∧ ¬ UTurn g p := by
  obtain ⟨r, hr, -, hrs⟩ := findLaneSequences_exact hg hstart hend maxLength
  obtain ⟨r', hr', hrs'⟩ := removeUTurns_spec hd hu r (fun p hp => by
    have := (hrs hne p).1 hp
    refine ⟨?_, this.connected⟩
    rintro rfl
    simpa using this.first)
  refine ⟨r', fun depth hdep => by simp [findLaneSequencesUTurn, hr depth hdep, hr'], fun p => ?_⟩
  rw [hrs', hrs hne]

example : UniformDirection (demoLaneGraph diamond) := demoLaneGraph_uniform (by decide)
example : NoDoubleJoin (demoLaneGraph diamond) := demoLaneGraph_noDoubleJoin (by decide)
example : findLaneSequencesUTurn (demoLaneGraph diamond) 4 0 2 100 true = some (.ok [[0, 2]]) := by decide +kernel

/-- With no_u_turns = false nothing is filtered. -/
theorem findLaneSequences_uTurnsAllowed (g : LaneGraph) (depth start end_ : Nat) (maxLength : ℚ) :
    findLaneSequencesUTurn g depth start end_ maxLength false =
      (findLaneSequences g depth start end_ maxLength).map .ok := rfl

/-- A → B → C, where C has the opposite direction. -/
def opposed : List (LaneEnd × LaneEnd) :=
  bothWays [(⟨0, .finish⟩, ⟨1, .start⟩), (⟨1, .finish⟩, ⟨2, .finish⟩)]

/-- C20 is false: the straight way over a lane of the opposite direction is discarded. -/
theorem findLaneSequences_rejects_straight :
    (demoLaneGraph opposed).WellFormed ∧ NoDoubleJoin (demoLaneGraph opposed) ∧
    findLaneSequencesUTurn (demoLaneGraph opposed) 4 0 2 100 true = some (.ok []) ∧
    IsLaneSequence (demoLaneGraph opposed) 0 2 100 [0, 1, 2] ∧ ¬ UTurn (demoLaneGraph opposed) [0, 1, 2] := by
  refine ⟨demoLaneGraph_wellFormed (by decide), demoLaneGraph_noDoubleJoin (by decide), by decide +kernel,
    ⟨rfl, rfl, ?_, by decide, by decide +kernel⟩, ?_⟩
  · refine .cons_cons ⟨.finish, .start, ?_⟩ (.cons_cons ⟨.finish, .finish, ?_⟩ (.singleton _))
    · rw [demoLaneGraph_mem]; decide
    · rw [demoLaneGraph_mem]; decide
  · rw [uTurn_cons]
    rintro (⟨w, ⟨w', h⟩, ⟨w'', h'⟩⟩ | h)
    · rw [demoLaneGraph_mem] at h h'
      revert h h'
      cases w <;> cases w' <;> cases w'' <;> decide
    · exact not_uTurn_short _ _ (by simp) h

/-- The finish of A and the start of C are both joined to the start of B. -/
def opposedMerge : List (LaneEnd × LaneEnd) :=
  bothWays [(⟨0, .finish⟩, ⟨1, .start⟩), (⟨2, .start⟩, ⟨1, .start⟩)]

/-- C20 is false: a sequence that enters B through its start and leaves it through its start is
returned. -/
theorem findLaneSequences_accepts_uTurn :
    (demoLaneGraph opposedMerge).WellFormed ∧ NoDoubleJoin (demoLaneGraph opposedMerge) ∧
    findLaneSequencesUTurn (demoLaneGraph opposedMerge) 4 0 2 100 true = some (.ok [[0, 1, 2]]) ∧
    UTurn (demoLaneGraph opposedMerge) [0, 1, 2] := by
  refine ⟨demoLaneGraph_wellFormed (by decide), demoLaneGraph_noDoubleJoin (by decide), by decide +kernel,
    ⟨0, 0, 1, 2, .start, rfl, rfl, rfl, ⟨.finish, ?_⟩, ⟨.start, ?_⟩⟩⟩ <;>
  · rw [demoLaneGraph_mem]; decide

/-- C21, for roads that do not join a lane to the same lane at both ends: there is one route per lane
sequence, it drives along that sequence from the start to the end position, and consecutive ranges meet
at joined lane ends.  Missing: lanes joined at both ends, for which it is false
(`deriveLaneSRoutes_disconnected`). -/
theorem deriveLaneSRoutes_connected_partial {g : LaneGraph} (hg : g.WellFormed) (hsym : SymmetricBranches g)
    (hd : NoDoubleJoin g) {start end_ : Nat} (hstart : start ∈ g.lanes) (hend : end_ ∈ g.lanes)
    {startS lastS : ℚ} (hS0 : 0 ≤ startS) (hS : 0 ≤ lastS) (maxLength : ℚ) :
    ∃ seqs routes, (∀ depth, g.lanes.length ≤ depth →
        findLaneSequences g depth start end_ maxLength = some seqs ∧
        deriveLaneSRoutes g depth start startS end_ lastS maxLength = some (.ok routes)) ∧
      List.Forall₂ (RouteAlong g startS lastS) seqs routes := by
  obtain ⟨r, hr, h1, hrs⟩ := findLaneSequences_exact hg hstart hend maxLength
  have hp : ∀ p ∈ r, ∃ t, deriveRanges g start startS end_ lastS p = .ok t ∧ RouteAlong g startS lastS p t := by
    intro p hp
    by_cases hne : start = end_
    · subst hne
      rw [h1 rfl, List.mem_singleton] at hp
      subst hp
      exact deriveRanges_spec hg hsym hd hS0 hS rfl rfl (.singleton _)
    · have := (hrs hne p).1 hp
      exact deriveRanges_spec hg hsym hd hS0 hS this.first this.last this.connected
  obtain ⟨rs, hfold, hall⟩ := foldlM_except _ _ _ hp []
  exact ⟨r, rs, fun depth hdep => ⟨hr depth hdep, by
    rw [deriveLaneSRoutes, hr depth hdep, Option.map_some, hfold]; rfl⟩, hall⟩

example : SymmetricBranches (demoLaneGraph diamond) := demoLaneGraph_symmetric _
example : deriveLaneSRoutes (demoLaneGraph diamond) 4 0 3 3 4 10 = some (.ok
    [⟨[⟨"A", ⟨3, 10⟩⟩, ⟨"B", ⟨0, 10⟩⟩, ⟨"D", ⟨0, 4⟩⟩]⟩, ⟨[⟨"A", ⟨3, 10⟩⟩, ⟨"C", ⟨0, 10⟩⟩, ⟨"D", ⟨0, 4⟩⟩]⟩]) := by
  decide +kernel

/-- C21: an intermediate lane that is not entered and left through the same end is traversed entirely. -/
theorem routeAlong_traverses_partial {g : LaneGraph} (hg : g.WellFormed) {startS lastS : ℚ} {p : List Nat}
    {route : LaneSRoute} (h : RouteAlong g startS lastS p route) (i : Nat) (b : Nat) (r : LaneSRange)
    (hb : p[i + 1]? = some b) (hr : route.ranges[i + 1]? = some r) (hlt : i + 2 < p.length)
    (hu : ¬ UTurn g p) : r.sRange.size = g.length b := by
  have hlen : route.ranges.length = p.length := by simpa using congrArg List.length h.lanes
  have ha : p[i]? = some p[i] := List.getElem?_eq_getElem (by omega)
  have hc : p[i + 1 + 1]? = some p[i + 2] := List.getElem?_eq_getElem (by omega)
  obtain ⟨w1, w2, hm, -, h0⟩ := h.meet i _ b _ r ha hb (List.getElem?_eq_getElem (by omega)) hr
  obtain ⟨w3, w4, hm', h1, -⟩ := h.meet (i + 1) b _ r _ hb hc hr (List.getElem?_eq_getElem (by omega))
  have hne : w2 ≠ w3 := by
    rintro rfl
    exact hu ⟨i, _, b, _, w2, ha, hb, hc, ⟨_, hm⟩, ⟨_, hm'⟩⟩
  have hl := hg.lengthNonneg b
  unfold SRange.size
  rw [h0, h1]
  cases w2 <;> cases w3 <;> simp_all [endS, abs_of_nonneg]

/-- The routes of `DeriveLaneSRoutes` may contain U-turns; the lane on which it turns is not traversed. -/
theorem deriveLaneSRoutes_not_traversed :
    NoDoubleJoin (demoLaneGraph diamond) ∧ SymmetricBranches (demoLaneGraph diamond) ∧
    deriveLaneSRoutes (demoLaneGraph diamond) 4 1 0 2 5 10 = some (.ok
      [⟨[⟨"B", ⟨0, 0⟩⟩, ⟨"A", ⟨10, 10⟩⟩, ⟨"C", ⟨0, 5⟩⟩]⟩, ⟨[⟨"B", ⟨0, 10⟩⟩, ⟨"D", ⟨0, 0⟩⟩, ⟨"C", ⟨10, 5⟩⟩]⟩]) :=
  ⟨demoLaneGraph_noDoubleJoin (by decide), demoLaneGraph_symmetric _, by decide +kernel⟩

/-- A and B form a ring. -/
def ring : List (LaneEnd × LaneEnd) := bothWays [(⟨0, .finish⟩, ⟨1, .start⟩), (⟨1, .finish⟩, ⟨0, .start⟩)]

/-- C21 is false: the route leaves A through its finish, and continues at the finish of B, which is not
joined to it. -/
theorem deriveLaneSRoutes_disconnected :
    (demoLaneGraph ring).WellFormed ∧ SymmetricBranches (demoLaneGraph ring) ∧
    ∃ routes, deriveLaneSRoutes (demoLaneGraph ring) 4 0 3 1 4 10 = some (.ok routes) ∧
      (⟨[⟨"A", ⟨3, 10⟩⟩, ⟨"B", ⟨10, 4⟩⟩]⟩ : LaneSRoute) ∈ routes ∧
      ¬ Meet (demoLaneGraph ring) [0, 1] [⟨"A", ⟨3, 10⟩⟩, ⟨"B", ⟨10, 4⟩⟩] := by
  refine ⟨demoLaneGraph_wellFormed (by decide), demoLaneGraph_symmetric _,
    [⟨[⟨"A", ⟨3, 10⟩⟩, ⟨"B", ⟨10, 4⟩⟩]⟩, ⟨[⟨"A", ⟨3, 10⟩⟩, ⟨"B", ⟨10, 4⟩⟩]⟩], by decide +kernel, by decide +kernel, ?_⟩
  intro h
  obtain ⟨w, w', hm, h1, h2⟩ := h 0 0 1 _ _ rfl rfl rfl rfl
  rw [demoLaneGraph_mem] at hm
  revert hm h1 h2
  cases w <;> cases w' <;> decide +kernel

end Maliput.Props
