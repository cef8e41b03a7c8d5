import Verif.Lemmas.Monad
import Verif.Lemmas.Regions
import Verif.Lemmas.Graph
import Verif.Spec.Router

set_option autoImplicit false

/-! Lemmas about the router. -/
namespace Maliput.Router
open Maliput.RouteGraph Maliput.Spec
open Maliput.Topo (Which LaneEnd)

theorem lift_ok {α : Type} {x : Except Err α} {a : α} : lift x = .ok a ↔ x = .ok a := by
  cases x <;> simp [lift]

/-! ### Phases -/

theorem make_ok {s0 s1 : ℚ} {r : SRange} (h : SRange.make s0 s1 = .ok r) : r = ⟨s0, s1⟩ ∧ 0 ≤ s0 ∧ 0 ≤ s1 := by
  simp only [SRange.make, bind_ok, throwUnless_ok, pure_ok, decide_eq_true_eq] at h
  obtain ⟨-, h0, -, h1, rfl⟩ := h
  exact ⟨rfl, h0, h1⟩

theorem contains_ok {a b : SRange} {tol : ℚ} (ht : 0 ≤ tol) (h : a.contains b tol = .ok true) :
    0 ≤ b.s0 ∧ 0 ≤ b.s1 ∧ b.s0 ≤ max a.s0 a.s1 + tol ∧ b.s1 ≤ max a.s0 a.s1 + tol ∧
      min a.s0 a.s1 - tol ≤ b.s0 ∧ min a.s0 a.s1 - tol ≤ b.s1 := by
  have hv : ValidRange a ∧ ValidRange b := by
    simp only [SRange.contains, bind_ok, throwUnless_ok, Bool.and_eq_true, decide_eq_true_eq] at h
    obtain ⟨-, ⟨h1, h2⟩, -⟩ := h
    exact ⟨⟨le_trans h1 (min_le_left _ _), le_trans h1 (min_le_right _ _)⟩,
      ⟨le_trans h2 (min_le_left _ _), le_trans h2 (min_le_right _ _)⟩⟩
  rw [contains_eq hv.1 hv.2 (.inl ht)] at h
  simp only [Except.ok.injEq, decide_eq_true_eq] at h
  obtain ⟨h1, h2⟩ := h
  unfold hi at h1
  unfold lo at h2
  exact ⟨hv.2.1, hv.2.2, le_trans (le_max_left _ _) h1, le_trans (le_max_right _ _) h1,
    le_trans h2 (min_le_left _ _), le_trans h2 (min_le_right _ _)⟩

theorem rangeInNetwork_ok {net : RoadNet} {tol : ℚ} (ht : 0 ≤ tol) {r : LaneSRange}
    (h : rangeInNetwork net tol r = .ok true) :
    ∃ l, net.byId r.laneId = some l ∧ 0 ≤ r.sRange.s0 ∧ 0 ≤ r.sRange.s1 ∧
      r.sRange.s0 ≤ net.length l + tol ∧ r.sRange.s1 ≤ net.length l + tol := by
  unfold rangeInNetwork at h
  split at h
  · simp at h
  · rename_i l hl
    rw [bind_ok] at h
    obtain ⟨w, hw, h⟩ := h
    obtain ⟨rfl, h0, h1⟩ := make_ok hw
    obtain ⟨a, b, c, d, -, -⟩ := contains_ok ht h
    simp only [max_eq_right h1] at c d
    exact ⟨l, hl, a, b, c, d⟩

theorem positionInRanges_ok {net : RoadNet} {ranges : List LaneSRange} {tol : ℚ} {q : RoadPos}
    (h : positionInRanges net ranges tol q = .ok true) : OnRanges net tol ranges q := by
  simp only [positionInRanges, bind_ok, throwUnless_ok, decide_eq_true_eq] at h
  obtain ⟨-, -, -, ht, h⟩ := h
  obtain ⟨r, hr, h⟩ := anyM_ok h
  split at h
  · simp at h
  · rename_i hid
    rw [bind_ok] at h
    obtain ⟨w, hw, h⟩ := h
    obtain ⟨rfl, h0, h1⟩ := make_ok hw
    obtain ⟨-, -, c, -, e, -⟩ := contains_ok ht h
    exact ⟨r, hr, (not_not.1 hid).symm, e, c⟩

theorem phaseMake_ok {net : RoadNet} {i : Nat} {tol : ℚ} {starts ends : List RoadPos} {ranges : List LaneSRange}
    {p : Phase} (h : Phase.make net i tol starts ends ranges = .ok p) :
    p = ⟨i, tol, starts, ends, ranges⟩ ∧ 0 ≤ tol ∧ ranges ≠ [] ∧
      (∀ r ∈ ranges, rangeInNetwork net tol r = .ok true) ∧
      (∀ q ∈ starts, positionInRanges net ranges tol q = .ok true) ∧
      (∀ q ∈ ends, positionInRanges net ranges tol q = .ok true) := by
  simp only [Phase.make, bind_ok, throwUnless_ok, pure_ok, decide_eq_true_eq] at h
  obtain ⟨-, ht, -, -, -, -, -, hr, b1, hb1, -, rfl, b2, hb2, -, rfl, b3, hb3, -, rfl, -, -, rfl⟩ := h
  exact ⟨rfl, ht, by simpa using hr, allM_ok.1 hb1, allM_ok.1 hb2, allM_ok.1 hb3⟩

theorem equivalentS_level {net : RoadNet} {tol : ℚ} (ht : 0 ≤ tol) (q : RoadPos) (l : Nat) :
    Level net tol q (net.length l) (equivalentS net q l tol) := by
  unfold Level equivalentS
  set x := max 0 (min (q.s / net.length q.lane * net.length l) (net.length l)) with hx
  have h0 : 0 ≤ x := le_max_left _ _
  have h1 : 0 ≤ net.length l → x ≤ net.length l := fun hl => max_le hl (min_le_right _ _)
  dsimp only
  rw [← hx]
  split
  · rw [abs_le]; constructor <;> grind
  · split
    · rw [abs_le]; constructor <;> grind
    · simpa using ht

theorem makePhase_ok {net : RoadNet} {i : Nat} {e : Edge} {tol : ℚ} {starts ends : List RoadPos} {p : Phase}
    (h : makePhase net i e tol starts ends = .ok p) :
    p.startPositions = starts ∧ p.endPositions = ends ∧ p.ranges ≠ [] ∧ AlongSegment net tol e.segment p := by
  simp only [makePhase, bind_ok, throwUnless_ok] at h
  obtain ⟨-, hs, -, he, -, hss, -, hes, h⟩ := h
  split at h
  · rename_i s ss t ts
    rw [bind_ok] at h
    obtain ⟨ranges, hr, h⟩ := h
    obtain ⟨rfl, ht, hne, h1, h2, h3⟩ := phaseMake_ok h
    refine ⟨rfl, rfl, hne, ⟨?_, ?_, ?_, ?_, ⟨s, t, rfl, rfl, ?_⟩⟩⟩
    · have := mapM_ok hr
      clear hr h hne h1 h2 h3
      dsimp only
      generalize net.segLanes e.segment = ls at this ⊢
      induction this with
      | nil => rfl
      | cons hab _ ih =>
        rw [bind_ok] at hab
        obtain ⟨r, -, hab⟩ := hab
        rw [pure_ok] at hab
        subst hab
        rw [List.map_cons, List.map_cons, ih]
    · exact fun r hr => rangeInNetwork_ok ht (h1 r hr)
    · exact fun q hq => ⟨by simpa using List.all_eq_true.1 hss q hq, positionInRanges_ok (h2 q hq)⟩
    · exact fun q hq => ⟨by simpa using List.all_eq_true.1 hes q hq, positionInRanges_ok (h3 q hq)⟩
    · refine (mapM_ok hr).imp fun l r hlr => ?_
      simp only [bind_ok, pure_ok] at hlr
      obtain ⟨x, hx, rfl⟩ := hlr
      obtain ⟨rfl, h4, -⟩ := make_ok hx
      exact ⟨equivalentS_level ht s l, equivalentS_level ht t l⟩
  · simp at h

/-- How phases and edges belong together. -/
inductive PhasesOf (net : RoadNet) (g : Graph) (tol : ℚ) (end_ : RoadPos) : List RoadPos → List Edge → List Phase → Prop
  | last {e : Edge} {p : Phase} {sp : List RoadPos} (h : AlongSegment net tol e.segment p) (hr : p.ranges ≠ [])
      (hs : p.startPositions = sp) (he : p.endPositions = [end_]) : PhasesOf net g tol end_ sp [e] [p]
  | cons {e f : Edge} {p : Phase} {sp np : List RoadPos} {es : List Edge} {ps : List Phase}
      (h : AlongSegment net tol e.segment p) (hr : p.ranges ≠ []) (hs : p.startPositions = sp)
      (he : positionsTowards net g e f = .ok p.endPositions) (hn : positionsTowards net g f e = .ok np)
      (hw : PhasesOf net g tol end_ np (f :: es) ps) : PhasesOf net g tol end_ sp (e :: f :: es) (p :: ps)

theorem phasesOf_ok {net : RoadNet} {g : Graph} {tol : ℚ} {start end_ : RoadPos} (es : List Edge) :
    ∀ (i : Nat) (prev : Option Edge) (e : Edge) (ps : List Phase),
      phasesOf net g tol start end_ i prev (e :: es) = .ok ps →
      ∃ sp, positionsOr net g e prev start = .ok sp ∧ PhasesOf net g tol end_ sp (e :: es) ps := by
  induction es with
  | nil =>
    intro i prev e ps h
    simp only [phasesOf, bind_ok, pure_ok, Except.ok.injEq] at h
    obtain ⟨sp, hsp, ep, hep, p, hp, -, rfl, rfl⟩ := h
    obtain ⟨h1, h2, h3, h4⟩ := makePhase_ok hp
    simp only [positionsOr, List.head?_nil, Except.ok.injEq] at hep
    exact ⟨sp, hsp, .last h4 h3 h1 (by rw [h2, hep])⟩
  | cons f es ih =>
    intro i prev e ps h
    unfold phasesOf at h
    simp only [bind_ok, pure_ok] at h
    obtain ⟨sp, hsp, ep, hep, p, hp, ps', hps, rfl⟩ := h
    obtain ⟨h1, h2, h3, h4⟩ := makePhase_ok hp
    obtain ⟨np, hnp, hw⟩ := ih _ _ _ _ hps
    exact ⟨sp, hsp, .cons h4 h3 h1 (by rw [h2]; exact hep) hnp hw⟩

theorem makePhase_index {net : RoadNet} {i : Nat} {e : Edge} {tol : ℚ} {starts ends : List RoadPos} {p : Phase}
    (h : makePhase net i e tol starts ends = .ok p) : (p.index, p.tolerance) = (i, tol) := by
  simp only [makePhase, bind_ok, throwUnless_ok] at h
  obtain ⟨-, -, -, -, -, -, -, -, h⟩ := h
  split at h
  · rw [bind_ok] at h
    obtain ⟨ranges, -, h⟩ := h
    obtain ⟨rfl, -⟩ := phaseMake_ok h
    rfl
  · simp at h

theorem phasesOf_index {net : RoadNet} {g : Graph} {tol : ℚ} {start end_ : RoadPos} (es : List Edge) :
    ∀ (i : Nat) (prev : Option Edge) (ps : List Phase), phasesOf net g tol start end_ i prev es = .ok ps →
      ps.map (fun p => (p.index, p.tolerance)) = (List.range' i ps.length).map (·, tol) := by
  induction es with
  | nil =>
    intro i prev ps h
    have : ps = [] := by simpa [phasesOf, eq_comm] using h
    simp [this]
  | cons e es ih =>
    intro i prev ps h
    unfold phasesOf at h
    simp only [bind_ok, pure_ok] at h
    obtain ⟨sp, hsp, ep, hep, p, hp, ps', hps, rfl⟩ := h
    rw [List.map_cons, ih _ _ _ hps, makePhase_index hp, List.length_cons, List.range'_succ, List.map_cons]

theorem phasesOf_head {net : RoadNet} {g : Graph} {tol : ℚ} {end_ : RoadPos} {sp : List RoadPos} {es : List Edge}
    {ps : List Phase} (h : PhasesOf net g tol end_ sp es ps) : ∃ p rest, ps = p :: rest ∧ p.startPositions = sp := by
  cases h with
  | last _ _ hs _ => exact ⟨_, _, rfl, hs⟩
  | cons _ _ hs _ _ _ => exact ⟨_, _, rfl, hs⟩

theorem phasesOf_last {net : RoadNet} {g : Graph} {tol : ℚ} {end_ : RoadPos} {sp : List RoadPos} {es : List Edge}
    {ps : List Phase} (h : PhasesOf net g tol end_ sp es ps) : EndsAt ps end_ := by
  induction h with
  | last _ _ _ he => exact ⟨_, rfl, he⟩
  | cons _ _ _ _ _ hw ih =>
    obtain ⟨p, rest, rfl, -⟩ := phasesOf_head hw
    obtain ⟨l, hl, hl'⟩ := ih
    exact ⟨l, by rw [List.getLast?_cons_cons]; exact hl, hl'⟩

theorem phasesOf_along {net : RoadNet} {g : Graph} {tol : ℚ} {end_ : RoadPos} {sp : List RoadPos} {es : List Edge}
    {ps : List Phase} (h : PhasesOf net g tol end_ sp es ps) :
    List.Forall₂ (fun e p => AlongSegment net tol e.segment p ∧ p.ranges ≠ []) es ps := by
  induction h with
  | last h hr _ _ => exact .cons ⟨h, hr⟩ .nil
  | cons h hr _ _ _ _ ih => exact .cons ⟨h, hr⟩ ih

theorem forall₂_getLast {α β : Type} {R : α → β → Prop} {l : List α} {m : List β} (h : List.Forall₂ R l m) {a : α} {b : β}
    (ha : l.getLast? = some a) (hb : m.getLast? = some b) : R a b := by
  induction h with
  | nil => simp at ha
  | @cons x y l m hxy hlm ih =>
    cases hlm with
    | nil => simp at ha hb; subst ha hb; exact hxy
    | cons _ _ => exact ih (by simpa using ha) (by simpa using hb)

theorem positionsTowards_interface {net : RoadNet} {g : Graph} {e f : Edge} {ps : List RoadPos}
    (h : positionsTowards net g e f = .ok ps) : ∀ q ∈ ps, AtInterface net f.segment q := by
  simp only [positionsTowards, bind_ok] at h
  obtain ⟨o, -, h⟩ := h
  cases o with
  | none => simp at h
  | some w =>
    simp only [allRoadPositions, bind_ok, throwUnless_ok, pure_ok] at h
    obtain ⟨-, -, rfl⟩ := h
    have key : ∀ sets : LaneEnd → List LaneEnd, (∀ x, sets x = net.ongoing x ∨ sets x = net.confluent x) →
        ∀ q ∈ processPositions net e w f sets, AtInterface net f.segment q := by
      intro sets hsets q hq
      simp only [processPositions, List.mem_map, List.mem_filter, List.any_eq_true, decide_eq_true_eq] at hq
      obtain ⟨l, ⟨-, le, hle, hseg⟩, rfl⟩ := hq
      refine ⟨w, by cases w <;> simp, rfl, rfl, le, ?_, hseg⟩
      rcases hsets ⟨l, w⟩ with h | h
      · exact .inl (h ▸ hle)
      · exact .inr (h ▸ hle)
    split
    · exact key _ fun _ => .inl rfl
    · exact key _ fun _ => .inr rfl

theorem phasesOf_interfaces {net : RoadNet} {g : Graph} {tol : ℚ} {end_ : RoadPos} {sp : List RoadPos} {es : List Edge}
    {ps : List Phase} (h : PhasesOf net g tol end_ sp es ps) :
    ((es.map Edge.segment).zip ps).IsChain (fun a b =>
      (∀ q ∈ a.2.endPositions, AtInterface net b.1 q) ∧ ∀ q ∈ b.2.startPositions, AtInterface net a.1 q) := by
  induction h with
  | last _ _ _ _ => simp
  | cons _ _ _ he hn hw ih =>
    obtain ⟨p, rest, rfl, hp⟩ := phasesOf_head hw
    simp only [List.map_cons, List.zip_cons_cons, List.isChain_cons_cons] at ih ⊢
    exact ⟨⟨positionsTowards_interface he, hp ▸ positionsTowards_interface hn⟩, ih⟩

/-! ### Costs -/

theorem foldl_min_spec (rs : List LaneSRange) (init : ℚ) :
    let c := rs.foldl (fun cost r => min cost r.length) init
    (c = init ∨ ∃ r ∈ rs, r.length = c) ∧ c ≤ init ∧ ∀ r ∈ rs, c ≤ r.length := by
  induction rs generalizing init with
  | nil => simp
  | cons r rs ih =>
    obtain ⟨h1, h2, h3⟩ := ih (min init r.length)
    simp only [List.foldl_cons]
    refine ⟨?_, le_trans h2 (min_le_left _ _), ?_⟩
    · rcases h1 with h1 | ⟨x, hx, h1⟩
      · rcases min_choice init r.length with h | h
        · left; rw [h1, h]
        · right; exact ⟨r, by simp, by rw [h1, h]⟩
      · right; exact ⟨x, by simp [hx], h1⟩
    · intro x hx
      rcases List.mem_cons.1 hx with rfl | hx
      · exact le_trans h2 (min_le_right _ _)
      · exact h3 x hx

theorem phaseCost_isCost {p : Phase} (hne : p.ranges ≠ []) (hle : ∀ r ∈ p.ranges, r.length ≤ kMax) :
    IsCost p (phaseCost p) := by
  obtain ⟨h1, h2, h3⟩ := foldl_min_spec p.ranges kMax
  refine ⟨?_, h3⟩
  rcases h1 with h1 | h1
  · obtain ⟨r, hr⟩ := List.exists_mem_of_ne_nil _ hne
    refine ⟨r, hr, le_antisymm ?_ (h3 r hr)⟩
    have : r.length ≤ kMax := hle r hr
    unfold phaseCost
    rw [h1]; exact this
  · exact h1

theorem routeCost_sum (route : List Phase) : routeCost route = (route.map phaseCost).sum := by
  unfold routeCost
  suffices H : ∀ init, route.foldl (fun cost p => cost + phaseCost p) init = init + (route.map phaseCost).sum by
    rw [H]; simp
  induction route with
  | nil => simp
  | cons p ps ih => intro init; simp only [List.foldl_cons, List.map_cons, List.sum_cons]; rw [ih]; ring

theorem maxPhaseCost_le (route : List Phase) {p : Phase} (hp : p ∈ route) : phaseCost p ≤ maxPhaseCost route := by
  unfold maxPhaseCost
  suffices H : ∀ init, init ≤ route.foldl (fun cost p => max (phaseCost p) cost) init ∧
      phaseCost p ≤ route.foldl (fun cost p => max (phaseCost p) cost) init from (H 0).2
  have mono : ∀ (route : List Phase) (init : ℚ), init ≤ route.foldl (fun cost p => max (phaseCost p) cost) init := by
    intro route
    induction route with
    | nil => intro init; exact le_refl _
    | cons q qs ih => intro init; exact le_trans (le_max_right _ _) (ih _)
  induction route with
  | nil => simp at hp
  | cons q qs ih =>
    intro init
    refine ⟨mono _ _, ?_⟩
    rcases List.mem_cons.1 hp with rfl | hp
    · exact le_trans (le_max_left _ _) (mono _ _)
    · exact (ih hp _).2

theorem keepRoute_ok {c : Constraints} {route : List Phase} (h : keepRoute c route = .ok true) :
    (∀ m, c.maxPhaseCost = some m → maxPhaseCost route ≤ m) ∧ (∀ m, c.maxRouteCost = some m → routeCost route ≤ m) ∧
      (c.allowLaneSwitch = false → hasLaneSwitch route = .ok false) := by
  have hex : ∀ {o : Option ℚ} {x m : ℚ}, ¬ exceeds o x = true → o = some m → x ≤ m := by
    rintro o x m h rfl
    simpa [exceeds] using h
  unfold keepRoute at h
  by_cases h1 : exceeds c.maxPhaseCost (maxPhaseCost route) = true
  · rw [if_pos h1] at h; simp at h
  rw [if_neg h1] at h
  by_cases h2 : exceeds c.maxRouteCost (routeCost route) = true
  · rw [if_pos h2] at h; simp at h
  rw [if_neg h2] at h
  refine ⟨fun m hm => hex h1 hm, fun m hm => hex h2 hm, ?_⟩
  intro ha
  rw [ha] at h
  cases hs : hasLaneSwitch route with
  | error e => simp [hs, Except.map] at h
  | ok b => cases b <;> simp [hs, Except.map] at h ⊢

/-! ### Connectivity -/

theorem endPositionFound_ok {net : RoadNet} {starts : List RoadPos} {e : RoadPos}
    (h : endPositionFound net starts e = true) :
    ∃ p ∈ starts, net.close e p = true ∧
      (p.lane = e.lane ∨
        ∃ le ∈ net.ongoing ⟨e.lane, if e.s ≤ net.length e.lane - e.s then .start else .finish⟩, le.lane = p.lane) := by
  unfold endPositionFound at h
  split at h
  · rename_i p hp
    exact ⟨p, List.mem_of_find?_eq_some hp, h, .inl (by simpa using List.find?_some hp)⟩
  · rename_i hp
    obtain ⟨p, hp⟩ := Option.isSome_iff_exists.1 h
    have hm := List.mem_of_find?_eq_some hp
    rw [List.mem_filter, List.any_eq_true] at hm
    obtain ⟨hm, le, hle, heq⟩ := hm
    exact ⟨p, hm, by simpa using List.find?_some hp, .inr ⟨le, hle, (of_decide_eq_true heq).symm⟩⟩

theorem interfacesOk_chain {net : RoadNet} (route : List Phase) (h : interfacesOk net route = true) :
    route.IsChain (Linked net) := by
  induction route with
  | nil => exact .nil
  | cons a rest ih =>
    cases rest with
    | nil => exact .singleton _
    | cons b rest =>
      simp only [interfacesOk, Bool.and_eq_true, decide_eq_true_eq, List.all_eq_true] at h
      exact .cons_cons ⟨h.1.1, fun e he => endPositionFound_ok (h.1.2 e he)⟩ (ih h.2)

theorem validateRoutes_ok {net : RoadNet} {routes : List (List Phase)} (h : validateRoutes net routes = .ok ()) :
    ∀ r ∈ routes, endToEndOk net r = .ok true := by
  induction routes with
  | nil => simp
  | cons r rs ih =>
    simp only [validateRoutes, bind_ok, throwUnless_ok] at h
    obtain ⟨b, hb, -, rfl, h⟩ := h
    intro x hx
    rcases List.mem_cons.1 hx with rfl | hx
    · exact hb
    · exact ih h x hx

theorem endToEndOk_chain {net : RoadNet} {route : List Phase} (h : endToEndOk net route = .ok true) :
    route.IsChain (Linked net) := by
  unfold endToEndOk at h
  split at h
  · simp only [Except.ok.injEq, Bool.and_eq_true] at h
    exact interfacesOk_chain _ h.2
  · simp at h

/-! ### The whole computation -/

/-- Everything known about a returned route. -/
structure Returned (net : RoadNet) (g : Graph) (tol : ℚ) (start end_ : RoadPos) (c : Constraints) (route : List Phase) : Prop where
  phases : ∃ es, PhasesOf net g tol end_ [start] es route
  numbered : route.map (fun p => (p.index, p.tolerance)) = (List.range route.length).map (·, tol)
  kept : keepRoute c route = .ok true
  linked : route.IsChain (Linked net)
  constraints : validateConstraints c = .ok ()
  startLane : net.byId (net.laneId start.lane) = some start.lane
  endLane : net.byId (net.laneId end_.lane) = some end_.lane

theorem computeRoutes_returned {net : RoadNet} {g : Graph} {tol : ℚ} {depth : Nat} {start end_ : RoadPos}
    {c : Constraints} {routes : List (List Phase)} (h : computeRoutes net g tol depth start end_ c = .ok routes) :
    ∀ r ∈ routes, Returned net g tol start end_ c r := by
  simp only [computeRoutes, bind_ok, lift_ok, throwUnless_ok, decide_eq_true_eq] at h
  obtain ⟨-, hs, -, he, _, hc, h⟩ := h
  split at h
  · simp only [bind_ok, lift_ok, pure_ok] at h
    obtain ⟨seqs, -, seqs', hseqs, rs, hrs, rs', hrs', _, hv, rfl⟩ := h
    intro r hr
    have hf := (filterM_ok hrs' r).1 hr
    have hmap := mapM_ok hrs
    obtain ⟨seq, hseq, hph⟩ : ∃ seq ∈ seqs', phasesOf net g tol start end_ 0 none seq = .ok r := by
      have := hf.1
      clear * - this hmap
      induction hmap with
      | nil => simp at this
      | cons hab _ ih =>
        rcases List.mem_cons.1 this with rfl | h
        · exact ⟨_, by simp, hab⟩
        · obtain ⟨s, hs, h⟩ := ih h
          exact ⟨s, by simp [hs], h⟩
    have hne : seq ≠ [] := by
      rintro rfl
      have : r = [] := by simpa [phasesOf, eq_comm] using hph
      subst this
      have := validateRoutes_ok hv [] hr
      simp [endToEndOk] at this
    match seq, hne with
    | e :: es, _ =>
      obtain ⟨sp, hsp, hp⟩ := phasesOf_ok es 0 none e r hph
      have hsp' : sp = [start] := by simpa [positionsOr, eq_comm] using hsp
      subst hsp'
      exact ⟨⟨_, hp⟩, by rw [phasesOf_index _ _ _ _ hph, List.range_eq_range'], hf.2, endToEndOk_chain (validateRoutes_ok hv r hr), hc, hs, he⟩
  · simp at h

/-! ### Lane switches -/

theorem processPositions_lanes (net : RoadNet) (e : Edge) (w : Which) (f : Edge) (sets : LaneEnd → List LaneEnd) :
    (processPositions net e w f sets).map RoadPos.lane = lanesTowards net sets e.segment w f.segment := by
  unfold processPositions lanesTowards
  rw [List.map_map]
  exact List.map_id' _

theorem positionsTowards_ok {net : RoadNet} {g : Graph} {e f : Edge} {ps : List RoadPos}
    (h : positionsTowards net g e f = .ok ps) : e.segment ≠ f.segment ∧ ps ≠ [] ∧
      ∃ w, ps.map RoadPos.lane = lanesTowards net net.confluent e.segment w f.segment ∨
        ps.map RoadPos.lane = lanesTowards net net.ongoing e.segment w f.segment := by
  simp only [positionsTowards, bind_ok] at h
  obtain ⟨o, ho, h⟩ := h
  cases o with
  | none => simp at h
  | some w =>
    have hne : e.segment ≠ f.segment := by
      intro heq
      simp [determineEdgeEnd, heq, pure, Except.pure] at ho
    simp only [allRoadPositions, bind_ok, throwUnless_ok, pure_ok] at h
    obtain ⟨-, hemp, rfl⟩ := h
    refine ⟨hne, by simpa using hemp, w, ?_⟩
    split
    · right; exact processPositions_lanes _ _ _ _ _
    · left; exact processPositions_lanes _ _ _ _ _

theorem lanesTowards_mem {net : RoadNet} {sets : LaneEnd → List LaneEnd} {s t : Nat} {w : Which} {l : Nat}
    (hl : l ∈ net.segLanes s) {le : LaneEnd} (hle : le ∈ sets ⟨l, w⟩) (ht : net.laneSeg le.lane = t) :
    l ∈ lanesTowards net sets s w t := by
  unfold lanesTowards
  rw [List.mem_filter, List.any_eq_true]
  exact ⟨hl, le, hle, by simpa using ht⟩

theorem mem_segLanes_of_towards {net : RoadNet} {sets : LaneEnd → List LaneEnd} {s t : Nat} {w : Which} {l : Nat}
    (h : l ∈ lanesTowards net sets s w t) : l ∈ net.segLanes s := (List.mem_filter.1 h).1

/-- With lanes in order, the positions at an interface correspond by index. -/
theorem interface_pairs {net : RoadNet} (hn : net.toNet.WellFormed) (ho : InOrder net) {g : Graph} {e f : Edge} {a b : Phase}
    (ha : positionsTowards net g e f = .ok a.endPositions) (hb : positionsTowards net g f e = .ok b.startPositions)
    (hl : Linked net a b) :
    List.Forall₂ (Joined net) (a.endPositions.map RoadPos.lane) (b.startPositions.map RoadPos.lane) := by
  obtain ⟨hne, hane, w, hw⟩ := positionsTowards_ok ha
  obtain ⟨-, hbne, v, hv⟩ := positionsTowards_ok hb
  -- some end position has an ongoing branch into the other segment
  obtain ⟨x, hx⟩ := List.exists_mem_of_ne_nil _ hane
  obtain ⟨y, hy, -, hxy⟩ := hl.2 x hx
  have hxl : x.lane ∈ net.segLanes e.segment := by
    have : x.lane ∈ a.endPositions.map RoadPos.lane := List.mem_map.2 ⟨x, hx, rfl⟩
    rcases hw with hw | hw <;> (rw [hw] at this; exact mem_segLanes_of_towards this)
  have hyl : y.lane ∈ net.segLanes f.segment := by
    have : y.lane ∈ b.startPositions.map RoadPos.lane := List.mem_map.2 ⟨y, hy, rfl⟩
    rcases hv with hv | hv <;> (rw [hv] at this; exact mem_segLanes_of_towards this)
  have hys := hn.laneSeg _ _ hyl
  have hxs := hn.laneSeg _ _ hxl
  rcases hxy with hxy | ⟨le, hle, hley⟩
  · exact absurd (by rw [← hxs, ← hys, hxy]) hne
  have hong := lanesTowards_mem (sets := net.ongoing) (t := f.segment) hxl hle (by rw [hley]; exact hys)
  have hong' := List.ne_nil_of_mem hong
  have hw' : a.endPositions.map RoadPos.lane = lanesTowards net net.ongoing e.segment w f.segment := by
    rcases hw with hw | hw
    · exfalso
      rw [(ho.unmixed _ _ _ w hne hong').1] at hw
      exact hane (List.map_eq_nil_iff.1 hw)
    · exact hw
  have hv' : b.startPositions.map RoadPos.lane = lanesTowards net net.ongoing f.segment v e.segment := by
    rcases hv with hv | hv
    · exfalso
      rw [(ho.unmixed _ _ _ v hne hong').2] at hv
      exact hbne (List.map_eq_nil_iff.1 hv)
    · exact hv
  rw [hw', hv']
  refine ho.pairs _ _ _ _ hne ?_ ?_
  · rw [← hw']; simpa using hane
  · rw [← hv']; simpa using hbne

theorem forall₂_getElem {α β : Type} {R : α → β → Prop} {xs : List α} {ys : List β} (h : List.Forall₂ R xs ys)
    {i : Nat} {x : α} {y : β} (hx : xs[i]? = some x) (hy : ys[i]? = some y) : R x y := by
  induction h generalizing i with
  | nil => simp at hx
  | cons hab _ ih =>
    cases i with
    | zero => simp at hx hy; subst hx hy; exact hab
    | succ i => simp at hx hy; exact ih hx hy

theorem findIdx?_lane {ps : List RoadPos} {lane i : Nat} (h : ps.findIdx? (fun pos => decide (pos.lane = lane)) = some i) :
    ∃ p, ps[i]? = some p ∧ p.lane = lane := by
  rw [List.findIdx?_eq_some_iff_getElem] at h
  obtain ⟨hi, hp, -⟩ := h
  exact ⟨ps[i], by simp, by simpa using hp⟩

theorem along_range {net : RoadNet} {tol : ℚ} {seg : Nat} {p : Phase} (h : AlongSegment net tol seg p) {l : Nat}
    (hl : l ∈ net.segLanes seg) : ∃ r ∈ p.ranges, r.laneId = net.laneId l := by
  have : net.laneId l ∈ p.ranges.map LaneSRange.laneId := by rw [h.lanes]; exact List.mem_map.2 ⟨l, hl, rfl⟩
  obtain ⟨r, hr, hrl⟩ := List.mem_map.1 this
  exact ⟨r, hr, hrl⟩

theorem switchLoop_noSwitch {net : RoadNet} (hn : net.toNet.WellFormed) (ho : InOrder net) {g : Graph} {tol : ℚ}
    {end_ : RoadPos} {sp : List RoadPos} {es : List Edge} {route : List Phase}
    (h : PhasesOf net g tol end_ sp es route) (hl : route.IsChain (Linked net)) :
    ∀ lane, (∀ p, route.head? = some p → ∃ r ∈ p.ranges, r.laneId = net.laneId lane) →
      switchLoop lane route = .ok false →
      ∃ lanes : List Nat, List.Forall₂ (fun l p => ∃ r ∈ p.ranges, r.laneId = net.laneId l) lanes route ∧
        lanes.head? = some lane ∧ lanes.getLast? = some end_.lane ∧ lanes.IsChain (Joined net) := by
  induction h with
  | @last e p sp halong hr hs he =>
    intro lane hin hsw
    unfold switchLoop at hsw
    rw [he] at hsw
    split at hsw
    · simp at hsw
    · rename_i i hi
      obtain ⟨q, hq, hql⟩ := findIdx?_lane hi
      have hq' : q = end_ := by
        cases i with
        | zero => simpa [eq_comm] using hq
        | succ i => simp at hq
      subst hq'
      exact ⟨[lane], .cons (hin p rfl) .nil, rfl, by rw [← hql]; rfl, .singleton _⟩
  | @cons e f p sp np es ps halong hr hs he hnp hw ih =>
    intro lane hin hsw
    obtain ⟨q, rest, rfl, hq⟩ := phasesOf_head hw
    rw [List.isChain_cons_cons] at hl
    rw [switchLoop] at hsw
    split at hsw
    · simp at hsw
    · rename_i i hi
      obtain ⟨x, hx, hxl⟩ := findIdx?_lane hi
      dsimp only at hsw
      split at hsw
      · simp at hsw
      · rename_i y hy
        rw [← hq] at hnp
        have hpairs := interface_pairs hn ho he hnp hl.1
        have hj : Joined net lane y.lane := by
          rw [← hxl]
          exact forall₂_getElem hpairs (i := i) (by simp [hx]) (by simp [hy])
        have hyin : ∀ p', (q :: rest).head? = some p' → ∃ r ∈ p'.ranges, r.laneId = net.laneId y.lane := by
          intro p' hp'
          simp at hp'
          subst hp'
          have hal := phasesOf_along hw
          cases hal with
          | cons h1 _ =>
            obtain ⟨-, r, hr, hrl, -⟩ := h1.1.starts y (List.mem_of_getElem? hy)
            exact ⟨r, hr, hrl⟩
        obtain ⟨lanes, h1, h2, h3, h4⟩ := ih hl.2 y.lane hyin hsw
        refine ⟨lane :: lanes, .cons (hin p rfl) h1, rfl, ?_, ?_⟩
        · match lanes, h2, h3 with
          | z :: zs, _, h3 => rw [List.getLast?_cons_cons]; exact h3
        · match lanes, h2, h4 with
          | z :: zs, h2, h4 =>
            simp at h2
            subst h2
            exact .cons_cons hj h4

end Maliput.Router
