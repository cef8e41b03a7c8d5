import Verif.Spec.Double
import Verif.Lemmas.Router
import Verif.Props.Graph

set_option autoImplicit false

/-! Property C23: the routes that `DistanceRouter::ComputeRoutes` returns. -/
namespace Maliput.Props
open Maliput.RouteGraph Maliput.Router
open Maliput.Topo (Which LaneEnd)

/-- C23: every returned route starts at the start position and ends at the end position. -/
theorem computeRoutes_endpoints {net : RoadNet} {g : Graph} {tol : ℚ} {depth : Nat} {start end_ : RoadPos}
    {c : Constraints} {routes : List (List Phase)} (h : computeRoutes net g tol depth start end_ c = .ok routes) :
    ∀ r ∈ routes, StartsAt r start ∧ EndsAt r end_ := by
  intro r hr
  obtain ⟨es, hp⟩ := (computeRoutes_returned h r hr).phases
  obtain ⟨p, rest, rfl, hs⟩ := phasesOf_head hp
  exact ⟨⟨p, rfl, hs⟩, phasesOf_last hp⟩

/-- C23: every phase of a returned route runs along one segment: one range for each lane, within the lane,
from the level of the start to the level of the end, and all positions of the phase are on the ranges;
consecutive phases are linked and the phases are numbered from 0. -/
theorem computeRoutes_phases {net : RoadNet} {g : Graph} {tol : ℚ} {depth : Nat} {start end_ : RoadPos}
    {c : Constraints} {routes : List (List Phase)} (h : computeRoutes net g tol depth start end_ c = .ok routes) :
    ∀ r ∈ routes, (∀ p ∈ r, ∃ seg, AlongSegment net tol seg p) ∧ r.IsChain (Linked net) ∧
      r.map Phase.index = List.range r.length := by
  intro r hr
  have hR := computeRoutes_returned h r hr
  obtain ⟨es, hp⟩ := hR.phases
  refine ⟨?_, hR.linked, ?_⟩
  swap
  · have := congrArg (List.map Prod.fst) hR.numbered
    simpa [List.map_map, Function.comp_def] using this
  have hal := phasesOf_along hp
  clear hp hR hr
  induction hal with
  | nil => simp
  | cons hab _ ih =>
    intro p hp
    rcases List.mem_cons.1 hp with rfl | hp
    · exact ⟨_, hab.1⟩
    · exact ih p hp

/-- C23: a router is made for every network whose graph can be built and every tolerance that is not negative. -/
theorem router_accepts (net : RoadNet) (tol : ℚ) (g : Graph) :
    makeRouter net tol = .ok g ↔ 0 ≤ tol ∧ buildGraph net.toNet = .ok g := by
  simp only [makeRouter, bind_ok, throwUnless_ok, pure_ok, decide_eq_true_eq, ge_iff_le]
  constructor
  · rintro ⟨g', h, -, ht, rfl⟩
    exact ⟨ht, h⟩
  · rintro ⟨ht, h⟩
    exact ⟨g, h, (), ht, rfl⟩

/-- C23: the bound on lengths in the next theorem is the largest `double`. -/
theorem router_bound_is_largest_double :
    Dbl.Spec.Representable kMax ∧ ∀ q, Dbl.Spec.Representable q → q ≤ kMax := by
  have hk : kMax = ((2 ^ 53 - 1 : ℤ) : ℚ) * 2 ^ (971 : ℤ) := by
    rw [kMax, show (971 : ℤ) = ((971 : ℕ) : ℤ) from rfl, zpow_natCast]
    decide +kernel
  refine ⟨⟨2 ^ 53 - 1, 971, by norm_num, by norm_num, by norm_num, hk⟩, ?_⟩
  rintro q ⟨m, e, hm, -, he, rfl⟩
  rw [hk]
  have h1 : m ≤ 2 ^ 53 - 1 := by have := (abs_lt.1 hm).2; omega
  have h2 : (2 : ℚ) ^ e ≤ 2 ^ (971 : ℤ) := zpow_le_zpow_right₀ (by norm_num) he
  have h3 : (0 : ℚ) < 2 ^ e := zpow_pos (by norm_num) e
  have h4 : (m : ℚ) ≤ ((2 ^ 53 - 1 : ℤ) : ℚ) := by exact_mod_cast h1
  exact (mul_le_mul_of_nonneg_right h4 h3.le).trans (mul_le_mul_of_nonneg_left h2 (by norm_num))

/-- C23: the costs of a returned route are within the limits.  (Lengths are at most the largest `double`.) -/
theorem computeRoutes_costs {net : RoadNet} {g : Graph} {tol : ℚ} {depth : Nat} {start end_ : RoadPos}
    {c : Constraints} {routes : List (List Phase)} (h : computeRoutes net g tol depth start end_ c = .ok routes)
    {r : List Phase} (hr : r ∈ routes) (hlen : ∀ p ∈ r, ∀ x ∈ p.ranges, x.length ≤ kMax) :
    ∃ costs : List ℚ, List.Forall₂ IsCost r costs ∧
      (∀ m, c.maxPhaseCost = some m → ∀ x ∈ costs, x ≤ m) ∧ (∀ m, c.maxRouteCost = some m → costs.sum ≤ m) := by
  have hR := computeRoutes_returned h r hr
  obtain ⟨es, hp⟩ := hR.phases
  obtain ⟨h1, h2, -⟩ := keepRoute_ok hR.kept
  refine ⟨r.map phaseCost, ?_, ?_, ?_⟩
  · have hal := phasesOf_along hp
    rw [List.forall₂_map_right_iff, List.forall₂_same]
    intro p hpm
    refine phaseCost_isCost ?_ (hlen p hpm)
    clear hp hR hr hlen h1 h2
    induction hal with
    | nil => simp at hpm
    | cons hab _ ih =>
      rcases List.mem_cons.1 hpm with rfl | hpm
      · exact hab.2
      · exact ih hpm
  · intro m hm x hx
    obtain ⟨p, hp', rfl⟩ := List.mem_map.1 hx
    exact le_trans (maxPhaseCost_le r hp') (h1 m hm)
  · intro m hm
    rw [← routeCost_sum]
    exact h2 m hm

/-- C23: constraints that are not valid are rejected: no routes are returned. -/
theorem computeRoutes_rejects {net : RoadNet} {g : Graph} {tol : ℚ} {depth : Nat} {start end_ : RoadPos}
    {c : Constraints}
    (hc : (∃ m, c.maxPhaseCost = some m ∧ m < 0) ∨ (∃ m, c.maxRouteCost = some m ∧ m < 0) ∨
      (∃ m n, c.maxPhaseCost = some m ∧ c.maxRouteCost = some n ∧ n < m)) :
    computeRoutes net g tol depth start end_ c = .error (.err .throws) := by
  have hv : validateConstraints c = .error .throws := by
    rcases c with ⟨a, p, r⟩
    cases p with
    | none =>
      cases r with
      | none => simp at hc
      | some n =>
        simp at hc
        simp [validateConstraints, throwUnless, not_le.2 hc, bind, Except.bind]
    | some m =>
      cases r with
      | none =>
        simp at hc
        simp [validateConstraints, throwUnless, not_le.2 hc, bind, Except.bind]
      | some n =>
        simp at hc
        by_cases hm : 0 ≤ m
        · by_cases hn : 0 ≤ n
          · have : ¬ m ≤ n := by
              rcases hc with h | h | h
              · exact absurd hm (not_le.2 h)
              · exact absurd hn (not_le.2 h)
              · exact not_le.2 h
            simp [validateConstraints, throwUnless, hm, hn, this, bind, Except.bind]
          · simp [validateConstraints, throwUnless, hm, hn, bind, Except.bind]
        · simp [validateConstraints, throwUnless, hm, bind, Except.bind]
  unfold computeRoutes
  rw [hv]
  by_cases h1 : net.byId (net.laneId start.lane) = some start.lane <;>
    by_cases h2 : net.byId (net.laneId end_.lane) = some end_.lane <;>
    simp [h1, h2, throwUnless, lift, bind, Except.bind]

/-- C23: when lane switches are not allowed, a returned route can be driven without one.
Missing: networks in which the lanes of joined segments are not joined in order (e.g. because one of the
segments runs the other way); see `computeRoutes_needs_switch`. -/
theorem computeRoutes_noSwitch_partial {net : RoadNet} (hn : net.toNet.WellFormed) (ho : InOrder net)
    {g : Graph} {tol : ℚ} {depth : Nat} {start end_ : RoadPos}
    {c : Constraints} {routes : List (List Phase)} (h : computeRoutes net g tol depth start end_ c = .ok routes)
    (hc : c.allowLaneSwitch = false) : ∀ r ∈ routes, NoSwitch net r start end_ := by
  intro r hr
  have hR := computeRoutes_returned h r hr
  obtain ⟨es, hp⟩ := hR.phases
  have hsw := (keepRoute_ok hR.kept).2.2 hc
  obtain ⟨p, rest, rfl, hs⟩ := phasesOf_head hp
  obtain ⟨l, hl, hle⟩ := phasesOf_last hp
  unfold hasLaneSwitch at hsw
  rw [hl] at hsw
  simp only [List.head?_cons, Option.bind_some, hs, hle] at hsw
  have hin : ∀ p', (p :: rest).head? = some p' → ∃ r ∈ p'.ranges, r.laneId = net.laneId start.lane := by
    intro p' hp'
    simp at hp'
    subst hp'
    have hal := phasesOf_along hp
    cases hal with
    | cons h1 _ =>
      obtain ⟨-, r, hr, hrl, -⟩ := h1.1.starts start (by rw [hs]; simp)
      exact ⟨r, hr, hrl⟩
  split at hsw
  · rename_i hlen
    simp only [List.length_cons, Nat.add_eq_right, List.length_eq_zero_iff] at hlen
    subst hlen
    simp at hsw
    exact ⟨[start.lane], .cons (hin p rfl) .nil, rfl, by rw [hsw]; rfl, .singleton _⟩
  · exact switchLoop_noSwitch hn ho hp hR.linked start.lane hin hsw

/-- C23: the computation ends: recursion is never deeper than the number of nodes. -/
theorem computeRoutes_terminates (net : RoadNet) {g : Graph} (hg : g.WellFormed) (tol : ℚ) (start end_ : RoadPos)
    (c : Constraints) : ∃ r, r ≠ .error .depth ∧
      ∀ depth ≥ g.nodes.length, computeRoutes net g tol depth start end_ c = r := by
  have hlift : ∀ {α : Type} (x : Except Err α), lift x ≠ .error .depth := by
    intro α x; cases x <;> simp [lift]
  have hbind : ∀ {α β : Type} (x : Except Stop α) (f : α → Except Stop β), x ≠ .error .depth →
      (∀ a, f a ≠ .error .depth) → (x >>= f) ≠ .error .depth := by
    intro α β x f hx hf
    cases x with
    | error e => simpa [bind, Except.bind] using hx
    | ok a => exact hf a
  refine ⟨computeRoutes net g tol g.nodes.length start end_ c, ?_, ?_⟩
  · unfold computeRoutes
    refine hbind _ _ (hlift _) fun _ => hbind _ _ (hlift _) fun _ => hbind _ _ (hlift _) fun _ => ?_
    split
    · rename_i s t hs ht
      refine hbind _ _ ?_ fun _ => hbind _ _ (hlift _) fun _ => hbind _ _ (hlift _) fun _ =>
        hbind _ _ (hlift _) fun _ => hbind _ _ (hlift _) fun _ => by simp [pure, Except.pure]
      by_cases hst : s.id = t.id
      · unfold findAllEdgeSequences
        refine hbind _ _ (hlift _) fun _ => hbind _ _ (hlift _) fun _ => ?_
        rw [if_pos hst]
        simp [pure, Except.pure]
      · obtain ⟨r, hr, -⟩ := findAllEdgeSequences_exact net.toNet hg
          (List.mem_of_find?_eq_some hs) (List.mem_of_find?_eq_some ht) hst
        rw [hr _ (Nat.le_refl _)]
        simp
    · simp
  · intro depth hd
    unfold computeRoutes
    congr 1; funext _; congr 1; funext _; congr 1; funext _
    split
    · rename_i s t hs ht
      congr 1
      by_cases hst : s.id = t.id
      · unfold findAllEdgeSequences
        simp only [if_pos hst]
      · obtain ⟨r, hr, -⟩ := findAllEdgeSequences_exact net.toNet hg
          (List.mem_of_find?_eq_some hs) (List.mem_of_find?_eq_some ht) hst
        rw [hr _ hd, hr _ (Nat.le_refl _)]
    · rfl

/-- C23: the phases of a returned route follow segments, and between two phases the positions are at the
ends of the lanes of the one segment at which lanes of the other segment begin or end. -/
theorem computeRoutes_interfaces {net : RoadNet} {g : Graph} {tol : ℚ} {depth : Nat} {start end_ : RoadPos}
    {c : Constraints} {routes : List (List Phase)} (h : computeRoutes net g tol depth start end_ c = .ok routes) :
    ∀ r ∈ routes, ∃ segs, List.Forall₂ (AlongSegment net tol) segs r ∧
      (segs.zip r).IsChain (fun a b =>
        (∀ q ∈ a.2.endPositions, AtInterface net b.1 q) ∧ ∀ q ∈ b.2.startPositions, AtInterface net a.1 q) := by
  intro r hr
  obtain ⟨es, hp⟩ := (computeRoutes_returned h r hr).phases
  exact ⟨es.map Edge.segment, List.forall₂_map_left_iff.2 ((phasesOf_along hp).imp fun _ _ h => h.1),
    phasesOf_interfaces hp⟩

/-- C23: without constraints every way through the graph becomes a route.  Between the node at the start of
the start lane and the node at the end of the end lane, if these differ, the returned routes are, one by one,
along the simple sequences of edges whose consecutive edges oppose each other, extended by the segment of
the start and the segment of the end where the sequence does not contain them at its ends.  Missing for the
full claim: ways that leave the start lane against its direction to a neighbouring segment; such a request
may return nothing (`computeRoutes_misses_neighbour`). -/
theorem computeRoutes_complete_partial {net : RoadNet} {g : Graph} (hg : g.WellFormed) {tol : ℚ} {depth : Nat}
    (hd : depth ≥ g.nodes.length) {start end_ : RoadPos} {s t : Node}
    (hs : findNode net.toNet g start.lane .start = some s) (ht : findNode net.toNet g end_.lane .finish = some t)
    (hst : s.id ≠ t.id) {routes : List (List Phase)}
    (h : computeRoutes net g tol depth start end_ ⟨true, none, none⟩ = .ok routes) :
    ∃ ways : List (List Edge),
      (∀ p, p ∈ ways ↔ IsEdgeSequence g s.id t.id p ∧ p.IsChain (fun e f => fromOpposingSides net.toNet e f = .ok true)) ∧
      List.Forall₂ (fun (way : List Edge) route => ∃ before after : List Nat, ∃ f l,
          way.head? = some f ∧ way.getLast? = some l ∧
          List.Forall₂ (fun seg p => AlongSegment net tol seg p) (before ++ way.map Edge.segment ++ after) route ∧
          (f.segment = net.laneSeg start.lane ∧ before = [] ∨
            f.segment ≠ net.laneSeg start.lane ∧ before = [net.laneSeg start.lane]) ∧
          (l.segment = net.laneSeg end_.lane ∧ after = [] ∨
            l.segment ≠ net.laneSeg end_.lane ∧ after = [net.laneSeg end_.lane])) ways routes := by
  simp only [computeRoutes, bind_ok, lift_ok, throwUnless_ok] at h
  obtain ⟨-, -, -, -, _, -, h⟩ := h
  rw [hs, ht] at h
  simp only [bind_ok, lift_ok, pure_ok] at h
  obtain ⟨seqs, hseqs, seqs', hseqs', rs, hrs, rs', hrs', _, hv, rfl⟩ := h
  obtain ⟨r, hr, hways⟩ := findAllEdgeSequences_exact net.toNet hg
    (List.mem_of_find?_eq_some hs) (List.mem_of_find?_eq_some ht) hst
  rw [hr depth hd] at hseqs
  cases hseqs
  refine ⟨seqs, hways, ?_⟩
  have hkeep : rs' = rs := by
    have := filterM_eq_filter (f := keepRoute ⟨true, none, none⟩) (p := fun _ => true) (xs := rs)
      (fun x _ => by simp [keepRoute, exceeds])
    rw [hrs'] at this
    simpa using this
  subst hkeep
  simp only [addStartAndEndEdges, bind_ok] at hseqs'
  obtain ⟨es, -, et, -, hseqs'⟩ := hseqs'
  have h1 := mapM_ok hseqs'
  have h2 := mapM_ok hrs
  clear hrs hrs' hv hseqs' hways hr
  induction h1 generalizing rs' with
  | nil => cases h2; exact .nil
  | @cons way way' ways ways' hway _ ih =>
    cases h2 with
    | @cons _ route _ routes hroute h2 =>
      refine .cons ?_ (ih _ h2)
      clear ih h2
      cases hf : way.head? with
      | none => simp [hf] at hway
      | some f =>
        cases hl : way.getLast? with
        | none => simp [hf, hl] at hway
        | some l =>
          simp only [hf, hl, Except.ok.injEq] at hway
          subst hway
          have hne : way ≠ [] := by rintro rfl; simp at hf
          generalize hpre : (if f.segment ≠ es.segment then [es] else []) = pre at hroute
          generalize hpost : (if l.segment ≠ et.segment then [et] else []) = post at hroute
          obtain ⟨e0, rest, he0⟩ : ∃ e0 rest, pre ++ way ++ post = e0 :: rest := by
            cases hc : pre ++ way ++ post with
            | nil => simp [hne] at hc
            | cons a b => exact ⟨a, b, rfl⟩
          rw [he0] at hroute
          obtain ⟨sp, hsp, hp⟩ := phasesOf_ok rest 0 none e0 route hroute
          obtain rfl : sp = [start] := by simpa [positionsOr, eq_comm] using hsp
          have hal := phasesOf_along hp
          obtain ⟨p0, ps, rfl, hp0⟩ := phasesOf_head hp
          obtain ⟨pl, hpl, hple⟩ := phasesOf_last hp
          have hfirst : e0.segment = net.laneSeg start.lane := by
            cases hal with
            | cons h _ => exact ((h.1.starts start (by simp [hp0])).1).symm
          have hlast : ∀ el, (e0 :: rest).getLast? = some el → el.segment = net.laneSeg end_.lane := by
            intro el hel
            have := (forall₂_getLast hal hel hpl).1
            exact ((this.ends end_ (by simp [hple])).1).symm
          refine ⟨pre.map Edge.segment, post.map Edge.segment, f, l, rfl, rfl, ?_, ?_, ?_⟩
          · rw [← List.map_append, ← List.map_append, he0, List.forall₂_map_left_iff]
            exact hal.imp fun _ _ h => h.1
          · subst hpre
            by_cases hfs : f.segment = es.segment
            · rw [if_neg (not_not.2 hfs)] at he0 ⊢
              left
              refine ⟨?_, rfl⟩
              have : (way ++ post).head? = some f := by simp [List.head?_append, hf]
              rw [List.nil_append] at he0
              rw [he0] at this
              simp at this
              rw [← this, hfirst]
            · rw [if_pos hfs] at he0 ⊢
              simp only [List.cons_append, List.nil_append, List.cons.injEq] at he0
              obtain ⟨rfl, -⟩ := he0
              right
              exact ⟨by rw [← hfirst]; exact hfs, by simp [hfirst]⟩
          · subst hpost
            by_cases hls : l.segment = et.segment
            · rw [if_neg (not_not.2 hls)] at he0 ⊢
              left
              refine ⟨hlast l ?_, rfl⟩
              rw [← he0]; simp [List.getLast?_append, hl]
            · rw [if_pos hls] at he0 ⊢
              have := hlast et (by rw [← he0]; simp)
              right
              exact ⟨by rw [← this]; exact hls, by simp [this]⟩

/-! ### Examples and witnesses -/

/-- Common parts of the examples: all lanes are 10 long and named after their number, up to nine lanes, two
lanes per segment at most, numbered from right to left; `succs` are the connected lane ends. -/
def exampleNet (segments : List Nat) (segLanes : Nat → List Nat) (laneSeg : Nat → Nat) (bp : LaneEnd → Nat)
    (aSide : Nat → List LaneEnd) (ongoing confluent : LaneEnd → List LaneEnd) : RoadNet where
  segments := segments
  segId s := if s = 0 then "s0" else if s = 1 then "s1" else if s = 2 then "s2" else "s3"
  segLanes := segLanes
  laneSeg := laneSeg
  bp := bp
  aSide := aSide
  length _ := 10
  laneId l := if l = 0 then "0" else if l = 1 then "1" else if l = 2 then "2" else "3"
  byId i := if i = "0" then some 0 else if i = "1" then some 1 else if i = "2" then some 2 else if i = "3" then some 3 else none
  toLeft l := if l + 1 ∈ segLanes (laneSeg l) then some (l + 1) else none
  toRight l := if 1 ≤ l ∧ l - 1 ∈ segLanes (laneSeg l) then some (l - 1) else none
  ongoing := ongoing
  confluent := confluent
  close a b :=
    let w := if a.s = 0 then Which.start else .finish
    let v := if b.s = 0 then Which.start else .finish
    decide (bp ⟨a.lane, w⟩ = bp ⟨b.lane, v⟩)

/-- Two segments of two lanes in a row. -/
def inRow : RoadNet := exampleNet [0, 1]
  (fun s => if s = 0 then [0, 1] else if s = 1 then [2, 3] else [])
  (fun l => if l ≤ 1 then 0 else 1)
  (fun le => match le.lane, le.which with
    | 0, .start => 0 | 1, .start => 1 | 0, .finish => 2 | 1, .finish => 3
    | 2, .start => 2 | 3, .start => 3 | 2, .finish => 4 | 3, .finish => 5 | _, _ => 100)
  (fun b => match b with
    | 0 => [⟨0, .start⟩] | 1 => [⟨1, .start⟩] | 2 => [⟨0, .finish⟩] | 3 => [⟨1, .finish⟩]
    | 4 => [⟨2, .finish⟩] | 5 => [⟨3, .finish⟩] | _ => [])
  (fun le => match le.lane, le.which with
    | 0, .finish => [⟨2, .start⟩] | 1, .finish => [⟨3, .start⟩]
    | 2, .start => [⟨0, .finish⟩] | 3, .start => [⟨1, .finish⟩] | _, _ => [])
  (fun le => [le])

/-- Its graph. -/
def inRowGraph : Graph where
  edges := [⟨"s0", 0, 0, 1⟩, ⟨"s1", 1, 1, 2⟩]
  nodes := [⟨0, [0, 1], ["s0"]⟩, ⟨1, [2, 3], ["s0", "s1"]⟩, ⟨2, [4, 5], ["s1"]⟩]

example : makeRouter inRow (1 / 100) = .ok inRowGraph := by decide +kernel

/-- The route from lane 0 to lane 2. -/
def inRowRoute : List Phase :=
  [⟨0, 1 / 100, [⟨0, 2, 0, 0⟩], [⟨0, 10, 0, 0⟩, ⟨1, 10, 0, 0⟩], [⟨"0", 2, 10⟩, ⟨"1", 2, 10⟩]⟩,
   ⟨1, 1 / 100, [⟨2, 0, 0, 0⟩, ⟨3, 0, 0, 0⟩], [⟨2, 5, 0, 0⟩], [⟨"2", 0, 5⟩, ⟨"3", 0, 5⟩]⟩]

example : computeRoutes inRow inRowGraph (1 / 100) 3 ⟨0, 2, 0, 0⟩ ⟨2, 5, 0, 0⟩ ⟨false, some 8, some 13⟩ =
    .ok [inRowRoute] := by decide +kernel

example : computeRoutes inRow inRowGraph (1 / 100) 3 ⟨0, 2, 0, 0⟩ ⟨3, 5, 0, 0⟩ ⟨false, none, none⟩ = .ok [] := by
  decide +kernel

example : computeRoutes inRow inRowGraph (1 / 100) 3 ⟨0, 2, 0, 0⟩ ⟨2, 5, 0, 0⟩ ⟨true, some 7, none⟩ = .ok [] := by
  decide +kernel

example : computeRoutes inRow inRowGraph (1 / 100) 3 ⟨0, 2, 0, 0⟩ ⟨2, 5, 0, 0⟩ ⟨true, none, some 12⟩ = .ok [] := by
  decide +kernel

theorem inRow_inOrder : InOrder inRow := by
  have hs : ∀ s sets w t, s ≠ 0 → s ≠ 1 → lanesTowards inRow sets s w t = [] := by
    intro s sets w t h0 h1
    simp [lanesTowards, inRow, exampleNet, h0, h1]
  have ht : ∀ s w t, t ≠ 0 → t ≠ 1 → lanesTowards inRow inRow.ongoing s w t = [] := by
    intro s w t h0 h1
    unfold lanesTowards
    rw [List.filter_eq_nil_iff]
    intro l _ h
    rw [List.any_eq_true] at h
    obtain ⟨le, -, h⟩ := h
    have : inRow.laneSeg le.lane = t := by simpa using h
    simp only [inRow, exampleNet] at this
    split at this <;> omega
  have hbool : ∀ s t : Nat, (s = 0 ∧ t = 1) ∨ (s = 1 ∧ t = 0) ∨ s = t ∨ (s ≠ 0 ∧ s ≠ 1) ∨ (t ≠ 0 ∧ t ≠ 1) := by
    intro s t; omega
  constructor
  · intro s t w v hst h1 h2
    rcases hbool s t with ⟨rfl, rfl⟩ | ⟨rfl, rfl⟩ | h | h | h
    · cases w <;> cases v <;> first
        | (exfalso; revert h1; decide)
        | (exfalso; revert h2; decide)
        | exact .cons ⟨.finish, .start, by decide⟩ (.cons ⟨.finish, .start, by decide⟩ .nil)
    · cases w <;> cases v <;> first
        | (exfalso; revert h1; decide)
        | (exfalso; revert h2; decide)
        | exact .cons ⟨.start, .finish, by decide⟩ (.cons ⟨.start, .finish, by decide⟩ .nil)
    · exact absurd h hst
    · exact absurd (hs s _ w t h.1 h.2) h1
    · exact absurd (hs t _ v s h.1 h.2) h2
  · intro s t w v hst h1
    rcases hbool s t with ⟨rfl, rfl⟩ | ⟨rfl, rfl⟩ | h | h | h
    · cases v <;> decide
    · cases v <;> decide
    · exact absurd h hst
    · exact absurd (hs s _ w t h.1 h.2) h1
    · exact absurd (ht s w t h.1 h.2) h1

/-- Two segments of two lanes; the second runs towards the first. -/
def headOn : RoadNet := exampleNet [0, 1]
  (fun s => if s = 0 then [0, 1] else if s = 1 then [2, 3] else [])
  (fun l => if l ≤ 1 then 0 else 1)
  (fun le => match le.lane, le.which with
    | 0, .start => 0 | 1, .start => 1 | 0, .finish => 2 | 1, .finish => 3
    | 3, .finish => 2 | 2, .finish => 3 | 2, .start => 4 | 3, .start => 5 | _, _ => 100)
  (fun b => match b with
    | 0 => [⟨0, .start⟩] | 1 => [⟨1, .start⟩] | 2 => [⟨0, .finish⟩] | 3 => [⟨1, .finish⟩]
    | 4 => [⟨2, .start⟩] | 5 => [⟨3, .start⟩] | _ => [])
  (fun le => match le.lane, le.which with
    | 0, .finish => [⟨3, .finish⟩] | 1, .finish => [⟨2, .finish⟩]
    | 2, .finish => [⟨1, .finish⟩] | 3, .finish => [⟨0, .finish⟩] | _, _ => [])
  (fun le => [le])

/-- C23 in general is false: without lane switches allowed, a route is returned that cannot be driven
without one, because the positions at the interface are paired by index. -/
theorem computeRoutes_needs_switch : ∃ g r, makeRouter headOn (1 / 100) = .ok g ∧
    computeRoutes headOn g (1 / 100) 3 ⟨0, 2, 0, 0⟩ ⟨2, 5, 0, 0⟩ ⟨false, none, none⟩ = .ok [r] ∧
    ¬ NoSwitch headOn r ⟨0, 2, 0, 0⟩ ⟨2, 5, 0, 0⟩ := by
  refine ⟨⟨[⟨"s0", 0, 0, 1⟩, ⟨"s1", 1, 2, 1⟩], [⟨0, [0, 1], ["s0"]⟩, ⟨1, [2, 3], ["s0", "s1"]⟩, ⟨2, [4, 5], ["s1"]⟩]⟩,
    [⟨0, 1 / 100, [⟨0, 2, 0, 0⟩], [⟨0, 10, 0, 0⟩, ⟨1, 10, 0, 0⟩], [⟨"0", 2, 10⟩, ⟨"1", 2, 10⟩]⟩,
     ⟨1, 1 / 100, [⟨2, 10, 0, 0⟩, ⟨3, 10, 0, 0⟩], [⟨2, 5, 0, 0⟩], [⟨"2", 10, 5⟩, ⟨"3", 10, 5⟩]⟩], ?_, ?_, ?_⟩
  · decide +kernel
  · decide +kernel
  · rintro ⟨lanes, hl, h1, h2, h3⟩
    have hlen := hl.length_eq
    match lanes, hlen with
    | [a, b], _ =>
      simp at h1 h2
      subst h1 h2
      obtain ⟨w, w', h⟩ := (List.isChain_cons_cons.1 h3).1
      cases w <;> cases w' <;> revert h <;> decide

/-- Segment 0 forks into segments 1 and 2, which merge into segment 3; all have one lane. -/
def forkMerge : RoadNet := exampleNet [0, 1, 2, 3]
  (fun s => if s ≤ 3 then [s] else [])
  (fun l => l)
  (fun le => match le.lane, le.which with
    | 0, .start => 0 | 0, .finish => 1 | 1, .start => 1 | 2, .start => 1
    | 1, .finish => 2 | 2, .finish => 2 | 3, .start => 2 | 3, .finish => 3 | _, _ => 100)
  (fun b => match b with
    | 0 => [⟨0, .start⟩] | 1 => [⟨0, .finish⟩] | 2 => [⟨1, .finish⟩, ⟨2, .finish⟩] | 3 => [⟨3, .finish⟩] | _ => [])
  (fun le => match le.lane, le.which with
    | 0, .finish => [⟨1, .start⟩, ⟨2, .start⟩] | 1, .start => [⟨0, .finish⟩] | 2, .start => [⟨0, .finish⟩]
    | 1, .finish => [⟨3, .start⟩] | 2, .finish => [⟨3, .start⟩] | 3, .start => [⟨1, .finish⟩, ⟨2, .finish⟩]
    | _, _ => [])
  (fun le => match le.lane, le.which with
    | 1, .start => [⟨1, .start⟩, ⟨2, .start⟩] | 2, .start => [⟨1, .start⟩, ⟨2, .start⟩]
    | 1, .finish => [⟨1, .finish⟩, ⟨2, .finish⟩] | 2, .finish => [⟨1, .finish⟩, ⟨2, .finish⟩] | _, _ => [le])

/-- C23 is about the routes that are returned.  A request can throw although there is a good route: the
start edge is put in front of every sequence from its node, also of the one through segment 2, which cannot
be reached from segment 1 there. -/
theorem computeRoutes_throws_despite_route : ∃ g r, makeRouter forkMerge (1 / 100) = .ok g ∧
    computeRoutes forkMerge g (1 / 100) 4 ⟨1, 5, 0, 0⟩ ⟨3, 5, 0, 0⟩ {} = .error (.err .throws) ∧
    phasesOf forkMerge g (1 / 100) ⟨1, 5, 0, 0⟩ ⟨3, 5, 0, 0⟩ 0 none [⟨"s1", 1, 1, 2⟩, ⟨"s3", 3, 2, 3⟩] = .ok r ∧
    endToEndOk forkMerge r = .ok true := by
  refine ⟨⟨[⟨"s0", 0, 0, 1⟩, ⟨"s1", 1, 1, 2⟩, ⟨"s2", 2, 1, 2⟩, ⟨"s3", 3, 2, 3⟩],
    [⟨0, [0], ["s0"]⟩, ⟨1, [1], ["s0", "s1", "s2"]⟩, ⟨2, [2], ["s1", "s2", "s3"]⟩, ⟨3, [3], ["s3"]⟩]⟩,
    [⟨0, 1 / 100, [⟨1, 5, 0, 0⟩], [⟨1, 10, 0, 0⟩], [⟨"1", 5, 10⟩]⟩,
     ⟨1, 1 / 100, [⟨3, 0, 0, 0⟩], [⟨3, 5, 0, 0⟩], [⟨"3", 0, 5⟩]⟩], ?_⟩
  decide +kernel

/-- A segment of two lanes that are joined by the lane of another segment at its end. -/
def culDeSac : RoadNet := exampleNet [0, 1]
  (fun s => if s = 0 then [0, 1] else if s = 1 then [2] else [])
  (fun l => if l ≤ 1 then 0 else 1)
  (fun le => match le.lane, le.which with
    | 0, .start => 0 | 1, .start => 1 | 0, .finish => 2 | 1, .finish => 3
    | 2, .start => 2 | 2, .finish => 3 | _, _ => 100)
  (fun b => match b with
    | 0 => [⟨0, .start⟩] | 1 => [⟨1, .start⟩] | 2 => [⟨0, .finish⟩] | 3 => [⟨1, .finish⟩] | _ => [])
  (fun le => match le.lane, le.which with
    | 0, .finish => [⟨2, .start⟩] | 1, .finish => [⟨2, .finish⟩]
    | 2, .start => [⟨0, .finish⟩] | 2, .finish => [⟨1, .finish⟩] | _, _ => [])
  (fun le => [le])

/-- A request without lane switches on a cul-de-sac reads past the end of the start positions; with lane
switches the request throws. -/
theorem computeRoutes_undefined : ∃ g, makeRouter culDeSac (1 / 100) = .ok g ∧
    computeRoutes culDeSac g (1 / 100) 2 ⟨1, 5, 0, 0⟩ ⟨2, 5, 0, 0⟩ ⟨false, none, none⟩ = .error (.err .ub) ∧
    computeRoutes culDeSac g (1 / 100) 2 ⟨1, 5, 0, 0⟩ ⟨2, 5, 0, 0⟩ {} = .error (.err .throws) := by
  refine ⟨⟨[⟨"s0", 0, 0, 1⟩, ⟨"s1", 1, 1, 1⟩], [⟨0, [0, 1], ["s0"]⟩, ⟨1, [2, 3], ["s0", "s1"]⟩]⟩, ?_⟩
  decide +kernel

/-- C23: two segments in a row, from the second back to the first: nothing is returned, although the route
along the two segments is one that passes every check.  The start of the one lane and the end of the other
are the same node, between which no sequence of edges is looked for. -/
theorem computeRoutes_misses_neighbour : ∃ r,
    computeRoutes inRow inRowGraph (1 / 100) 3 ⟨2, 5, 0, 0⟩ ⟨0, 2, 0, 0⟩ {} = .ok [] ∧
    phasesOf inRow inRowGraph (1 / 100) ⟨2, 5, 0, 0⟩ ⟨0, 2, 0, 0⟩ 0 none [⟨"s1", 1, 1, 2⟩, ⟨"s0", 0, 0, 1⟩] = .ok r ∧
    StartsAt r ⟨2, 5, 0, 0⟩ ∧ EndsAt r ⟨0, 2, 0, 0⟩ ∧ endToEndOk inRow r = .ok true := by
  refine ⟨[⟨0, 1 / 100, [⟨2, 5, 0, 0⟩], [⟨2, 0, 0, 0⟩, ⟨3, 0, 0, 0⟩], [⟨"2", 5, 0⟩, ⟨"3", 5, 0⟩]⟩,
     ⟨1, 1 / 100, [⟨0, 10, 0, 0⟩, ⟨1, 10, 0, 0⟩], [⟨0, 2, 0, 0⟩], [⟨"0", 10, 2⟩, ⟨"1", 10, 2⟩]⟩], ?_, ?_, ?_, ?_, ?_⟩
  · decide +kernel
  · decide +kernel
  · exact ⟨_, rfl, rfl⟩
  · exact ⟨_, rfl, rfl⟩
  · decide +kernel

/-- Three segments of one lane in a row. -/
def threeInRow : RoadNet := exampleNet [0, 1, 2]
  (fun s => if s ≤ 2 then [s] else [])
  (fun l => l)
  (fun le => match le.which with | .start => le.lane | .finish => le.lane + 1)
  (fun b => match b with
    | 0 => [⟨0, .start⟩] | 1 => [⟨0, .finish⟩] | 2 => [⟨1, .finish⟩] | 3 => [⟨2, .finish⟩] | _ => [])
  (fun le => match le.lane, le.which with
    | 0, .finish => [⟨1, .start⟩] | 1, .start => [⟨0, .finish⟩]
    | 1, .finish => [⟨2, .start⟩] | 2, .start => [⟨1, .finish⟩] | _, _ => [])
  (fun le => [le])

/-- C23: driving against the direction of the lanes, the sequence between the nodes is the middle segment
only and the route has the segments of the start and of the end added. -/
theorem computeRoutes_backwards : ∃ g, makeRouter threeInRow (1 / 100) = .ok g ∧
    computeRoutes threeInRow g (1 / 100) 4 ⟨2, 5, 0, 0⟩ ⟨0, 2, 0, 0⟩ {} = .ok
      [[⟨0, 1 / 100, [⟨2, 5, 0, 0⟩], [⟨2, 0, 0, 0⟩], [⟨"2", 5, 0⟩]⟩,
        ⟨1, 1 / 100, [⟨1, 10, 0, 0⟩], [⟨1, 0, 0, 0⟩], [⟨"1", 10, 0⟩]⟩,
        ⟨2, 1 / 100, [⟨0, 10, 0, 0⟩], [⟨0, 2, 0, 0⟩], [⟨"0", 10, 2⟩]⟩]] := by
  refine ⟨⟨[⟨"s0", 0, 0, 1⟩, ⟨"s1", 1, 1, 2⟩, ⟨"s2", 2, 2, 3⟩],
    [⟨0, [0], ["s0"]⟩, ⟨1, [1], ["s0", "s1"]⟩, ⟨2, [2], ["s1", "s2"]⟩, ⟨3, [3], ["s2"]⟩]⟩, ?_, ?_⟩ <;> decide +kernel

end Maliput.Props
