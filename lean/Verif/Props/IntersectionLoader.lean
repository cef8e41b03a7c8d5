import Verif.Lemmas.IntersectionLoader
import Verif.Props.Intersection
import Verif.Props.RowPhaseRing

set_option autoImplicit false

/-!
C82: loading an intersection document.  The result of `loadIntersections` is the phase provider afterwards and
the book, or how loading failed.
-/
namespace Maliput.Props

open Maliput.Rules Maliput.TrafficLights Maliput.Phases Maliput.Phases.Spec Maliput.Loader Maliput.Loader.Spec
  Maliput.Yaml Maliput.Yaml.Spec
open Maliput.Intersections (Intersection)

/-- The phase ring books a user can build meet the hypothesis of the theorems. -/
theorem built_rings (ops : List Op) (hv : ValidRings ops) : BuiltRings (run ops) := by
  intro id r hr
  obtain ⟨h1, h2⟩ := (rings_run ops id r).1 hr
  exact ⟨h2, hv r (live_added ops r h1)⟩

/-- C82: if a document is loaded, then it describes intersections with distinct ids, whose rings are known and
have the initial phase, and whose rules are known; the book is the one to which exactly the described
intersections were added, and the phases of the rings are those that the document asks for. -/
theorem intersection_loader_sound (rulebook : Rulebook.Book) (rings : Phases.Book) (hb : BuiltRings rings)
    (p p' : Provider) (root : Doc) (b : Intersections.Book)
    (h : loadIntersections rulebook rings p root = (p', .ok b)) :
    ∃ docs xs is, SaysIntersections root docs ∧ List.Forall₂ SaysIntersection docs xs ∧ (xs.map (·.id)).Nodup ∧
      (∀ x ∈ xs, ∃ r, KnownPhase rings x r ∧ KnownRules rulebook r) ∧
      List.Forall₂ (IsIntersection rulebook rings) xs is ∧ b = Intersections.Book.run (is.map some) ∧
      PhasesAfter rings xs p p' := by
  rcases loadIntersections_eq rulebook rings p root with ⟨docs, h1, h2⟩ | ⟨-, h1⟩
  · rw [h2] at h
    obtain ⟨pre, post, xs, q, res, g1, rfl, g3, g4, g5, g6⟩ := addIntersections_spec rulebook hb docs p .empty
    rw [h, Prod.mk.injEq] at g1
    obtain ⟨rfl, rfl⟩ := g1
    rcases g6 with ⟨is, rfl, k1, k2, k3, -, k5⟩ | ⟨k, -⟩ | ⟨k, -⟩ | ⟨k, -⟩
    · rw [List.append_nil] at h1
      refine ⟨pre, xs, is, h1, g3, k3, fun x hx => ?_, k1, Except.ok.inj k5, g5⟩
      obtain ⟨r, hr⟩ := g4 x hx
      exact ⟨r, hr, k2 x hx r hr⟩
    all_goals cases k
  · rw [h1] at h
    cases h

/-- C82: conversely, every such document is loaded. -/
theorem intersection_loader_complete (rulebook : Rulebook.Book) (rings : Phases.Book) (hb : BuiltRings rings)
    (p : Provider) (root : Doc) (docs : List Doc) (xs : List IntersectionSays) (h : SaysIntersections root docs)
    (hx : List.Forall₂ SaysIntersection docs xs) (hids : (xs.map (·.id)).Nodup)
    (hk : ∀ x ∈ xs, ∃ r, KnownPhase rings x r ∧ KnownRules rulebook r) :
    ∃ p' b, loadIntersections rulebook rings p root = (p', .ok b) := by
  rcases loadIntersections_eq rulebook rings p root with ⟨docs', h1, h2⟩ | ⟨h1, -⟩
  · have : docs' = docs := by
      rcases h with h | ⟨h, rfl⟩ <;> rcases h1 with h1 | ⟨h1, rfl⟩
      · have := h1.unique h
        injection this
      · exact (h.not_lacks h1).elim
      · exact (h1.not_lacks h).elim
      · rfl
    subst this
    obtain ⟨pre, post, ys, q, res, g1, rfl, g3, g4, g5, g6⟩ := addIntersections_spec rulebook hb docs' p .empty
    obtain ⟨xs1, xs2, rfl, hx1, hx2⟩ : ∃ xs1 xs2, xs = xs1 ++ xs2 ∧ List.Forall₂ SaysIntersection pre xs1 ∧
        List.Forall₂ SaysIntersection post xs2 := by
      refine ⟨xs.take pre.length, xs.drop pre.length, (List.take_append_drop _ _).symm, ?_, ?_⟩
      · have := List.forall₂_take pre.length hx
        rwa [List.take_left] at this
      · have := List.forall₂_drop pre.length hx
        rwa [List.drop_left] at this
    have hu : xs1 = ys := by
      clear g4 g5 g6 hids hk h h1 h2 g1 hx hx2
      induction g3 generalizing xs1 with
      | nil => cases hx1; rfl
      | cons g _ ih =>
        cases hx1 with
        | cons g' hx1 => rw [g.unique g', ih _ hx1]
    subst hu
    rcases g6 with ⟨is, -, -, -, -, -, rfl⟩ | ⟨-, d, rest, rfl, hd⟩ | ⟨-, before, x, r, rfl, k1, k2⟩ |
        ⟨-, before, x, rfl, ⟨y, hy, he⟩ | k1⟩
    · exact ⟨q, _, by rw [h2, g1]⟩
    · obtain ⟨x, _, hd', -, rfl⟩ := List.forall₂_cons_left_iff.1 hx2
      obtain ⟨r, hr, -⟩ := hk x (by simp)
      exact (hd ⟨x, r, hd', hr⟩).elim
    · obtain ⟨s, hs, hs'⟩ := hk x (by simp)
      have : s = r := by
        have := hs.1
        rw [k1.1] at this
        exact (Option.some.inj this).symm
      rw [this] at hs'
      exact (k2 hs').elim
    · simp only [List.map_append, List.append_assoc, List.map_cons, List.map_nil] at hids
      have := (List.nodup_append.1 hids).2.2 y.id (List.mem_map_of_mem hy) x.id (by simp)
      exact (this he).elim
    · exact (k1 rfl).elim
  · exact (h1 ⟨docs, h⟩).elim

/-- C82: how loading can fail, and what it leaves behind.  The intersections of the document are read in
order; `xs` are those that changed the phase provider, which is not undone.  An exception of the library ends
the loop before the next entry changes anything; an `std::out_of_range` escapes, after the change, if a rule
of the ring is not in the rulebook; the behaviour is undefined if an id is repeated. -/
theorem intersection_loader_errors (rulebook : Rulebook.Book) (rings : Phases.Book) (hb : BuiltRings rings)
    (p p' : Provider) (root : Doc) (e : Err) (h : loadIntersections rulebook rings p root = (p', .error e)) :
    (e = .throws ∧ p' = p ∧ ¬ ∃ docs, SaysIntersections root docs) ∨
    ∃ pre post xs, SaysIntersections root (pre ++ post) ∧ List.Forall₂ SaysIntersection pre xs ∧
      (∀ x ∈ xs, ∃ r, KnownPhase rings x r) ∧ PhasesAfter rings xs p p' ∧
      ((e = .throws ∧ ∃ d rest, post = d :: rest ∧ ¬ ∃ x r, SaysIntersection d x ∧ KnownPhase rings x r) ∨
        (e = .outOfRange ∧ ∃ before x r, xs = before ++ [x] ∧ KnownPhase rings x r ∧ ¬ KnownRules rulebook r) ∨
        (e = .ub ∧ ∃ before x, xs = before ++ [x] ∧ ∃ y ∈ before, y.id = x.id)) := by
  rcases loadIntersections_eq rulebook rings p root with ⟨docs, h1, h2⟩ | ⟨h0, h1⟩
  · rw [h2] at h
    obtain ⟨pre, post, xs, q, res, g1, rfl, g3, g4, g5, g6⟩ := addIntersections_spec rulebook hb docs p .empty
    rw [h, Prod.mk.injEq] at g1
    obtain ⟨rfl, rfl⟩ := g1
    refine Or.inr ⟨pre, post, xs, h1, g3, g4, g5, ?_⟩
    simp only [Except.error.injEq, reduceCtorEq, and_false, exists_const, false_or, Map.get?_empty, ne_eq,
      not_true_eq_false, or_false] at g6
    exact g6
  · rw [h1, Prod.mk.injEq] at h
    obtain ⟨rfl, h⟩ := h
    cases h
    exact Or.inl ⟨rfl, rfl, h0⟩

/-- C82: the intersections that are loaded are found by their ids, and their phase is the one that the phase
provider has for their ring. -/
theorem intersection_loader_queries (rulebook : Rulebook.Book) (rings : Phases.Book) (hb : BuiltRings rings)
    (p p' : Provider) (root : Doc) (b : Intersections.Book)
    (h : loadIntersections rulebook rings p root = (p', .ok b)) :
    ∃ docs xs, SaysIntersections root docs ∧ List.Forall₂ SaysIntersection docs xs ∧
      (∀ x ∈ xs, ∃ i, b.getIntersection x.id = some i ∧ IsIntersection rulebook rings x i ∧ i.ring.id = x.ring ∧
        ∃ y ∈ xs, y.ring = x.ring ∧ ∃ a, IsInitial rings y a ∧ Intersections.basePhase p' i = some a.2) ∧
      (∀ id i, b.getIntersection id = some i → ∃ x ∈ xs, x.id = id) := by
  obtain ⟨docs, xs, is, h1, h2, h3, h4, h5, rfl, as, h6, h7⟩ := intersection_loader_sound _ _ hb _ _ _ _ h
  refine ⟨docs, xs, h1, h2, fun x hx => ?_, fun id i hi => ?_⟩
  · obtain ⟨i, hi, hi'⟩ := forall₂_mem_left h5 hx
    have hring : i.ring.id = x.ring := (hb _ _ hi'.ring).1
    refine ⟨i, ?_, hi', hring, ?_⟩
    · obtain ⟨hget, hnone⟩ := intersectionBook_get (is.map some) x.id
      rw [hget]
      refine ⟨?_, hi'.id⟩
      obtain ⟨as, bs, rfl⟩ := List.append_of_mem hi
      refine ⟨as.map some, bs.map some, by simp, fun y hy heq => ?_⟩
      have hn : (((as ++ i :: bs).map (·.id))).Nodup := by
        have : (as ++ i :: bs).map (·.id) = xs.map (·.id) := by
          clear * - h5
          generalize as ++ i :: bs = l at h5
          induction h5 with
          | nil => rfl
          | cons h _ ih => rw [List.map_cons, List.map_cons, h.id, ih]
        rw [this]
        exact h3
      rw [List.map_append, List.nodup_append] at hn
      have hy' : y ∈ as := by simpa using hy
      exact hn.2.2 y.id (List.mem_map_of_mem hy') i.id (by simp) heq
    · have hlast : ∃ v, LastOf as x.ring v := by
        have hex : ∃ e ∈ as, e.1 = x.ring := by
          obtain ⟨a, ha, ha'⟩ := forall₂_mem_left h6 hx
          exact ⟨a, ha, ha'.1⟩
        clear * - hex
        induction as with
        | nil => simp at hex
        | cons a as ih =>
          simp only [lastOf_cons]
          by_cases hm : ∃ e ∈ as, e.1 = x.ring
          · obtain ⟨v, hv⟩ := ih hm
            exact ⟨v, Or.inl hv⟩
          · obtain ⟨e, he, he'⟩ := hex
            rcases List.mem_cons.1 he with rfl | he
            · exact ⟨e.2, Or.inr ⟨fun y hy hy' => hm ⟨y, hy, hy'⟩, by rw [← he']⟩⟩
            · exact absurd ⟨e, he, he'⟩ hm
      obtain ⟨v, hv⟩ := hlast
      have hget := (h7 x.ring v).2 (Or.inl hv)
      obtain ⟨before, after, rfl, -⟩ := hv
      obtain ⟨y, hy, hy'⟩ := forall₂_mem_right h6 (show (x.ring, v) ∈ before ++ (x.ring, v) :: after by simp)
      exact ⟨y, hy, hy'.1.symm, _, hy', by unfold Intersections.basePhase; rw [hring]; exact hget⟩
  · obtain ⟨hget, -⟩ := intersectionBook_get (is.map some) id
    obtain ⟨⟨before, after, he, -⟩, rfl⟩ := (hget i).1 hi
    have hi : i ∈ is := by
      have : some i ∈ is.map some := by rw [he]; simp
      simpa using this
    obtain ⟨x, hx, hx'⟩ := forall₂_mem_right h5 hi
    exact ⟨x, hx, hx'.id.symm⟩

/-! ### Books that were loaded -/

/-- C82: the phase ring books that are loaded can be used, and the rules of their rings are known. -/
theorem loaded_rings_built (rulebook : Rulebook.Book) (lights : TrafficLights.Book) (hl : BuiltLights lights)
    (c : Conv) (root : Doc) (rings : Phases.Book) (h : loadPhaseRings rulebook lights c root = .ok rings) :
    BuiltRings rings ∧ ∀ id r, getPhaseRing rings id = some r → KnownRules rulebook r := by
  constructor
  · obtain ⟨docs, l, -, h2, -, rfl⟩ := (loadRings_ok (buildPhaseRing_valid hl)).1 h
    refine built_rings _ fun r hr => ?_
    obtain ⟨d, -, hd⟩ := forall₂_mem_right h2 (show r ∈ l by simpa using hr)
    exact buildPhaseRing_valid hl d r hd
  · intro id r hr
    obtain ⟨docs, xs, -, h2, h3, -, h5⟩ := ring_loader_sound _ _ hl _ _ _ h
    obtain ⟨x, hx, rfl⟩ := h5.only id r hr
    obtain ⟨r', h6, h7, -⟩ := h5.rings x hx
    rw [h6] at hr
    obtain rfl := Option.some.inj hr
    obtain ⟨d, -, hd⟩ := forall₂_mem_right h2 hx
    have hcov := h7.covers hd (h3 x hx)
    refine ⟨fun k hk => ?_, Or.inr fun k hk => ((hcov k).1 hk).elim⟩
    obtain ⟨⟨k', rule⟩, hr1, rfl⟩ := List.mem_map.1 ((hcov k).2.1 hk)
    obtain ⟨l, -, ⟨-, he⟩ | hl'⟩ := hd.rules
    · rw [he] at hr1
      cases hr1
    · obtain ⟨e, -, -, -, he⟩ := forall₂_mem_right hl' hr1
      exact ⟨_, rule, he, rfl⟩

/-- C82: the same for right-of-way rules. -/
theorem loaded_rowRings_built (rulebook : Rulebook.Book) (lights : TrafficLights.Book) (hl : BuiltLights lights)
    (c : Conv) (root : Doc) (rings : Phases.Book) (h : loadRowPhaseRings rulebook lights c root = .ok rings) :
    BuiltRings rings ∧ ∀ id r, getPhaseRing rings id = some r → KnownRules rulebook r := by
  constructor
  · obtain ⟨docs, l, -, h2, -, rfl⟩ := (loadRings_ok (buildRowPhaseRing_valid hl)).1 h
    refine built_rings _ fun r hr => ?_
    obtain ⟨d, -, hd⟩ := forall₂_mem_right h2 (show r ∈ l by simpa using hr)
    exact buildRowPhaseRing_valid hl d r hd
  · intro id r hr
    obtain ⟨docs, xs, -, h2, h3, -, h5⟩ := rowRing_loader_sound _ _ hl _ _ _ h
    obtain ⟨x, hx, rfl⟩ := h5.only id r hr
    obtain ⟨r', h6, h7, -⟩ := h5.rings x hx
    rw [h6] at hr
    obtain rfl := Option.some.inj hr
    obtain ⟨d, -, hd⟩ := forall₂_mem_right h2 hx
    have hcov := h7.covers (h3 x hx)
    refine ⟨fun k hk => ?_, Or.inr fun k hk => ?_⟩
    · obtain ⟨id, hid, rfl⟩ := (hcov k).2.1 hk
      obtain ⟨y, hy⟩ := List.exists_mem_of_ne_nil _ (h3 x hx).nonempty
      obtain ⟨q, -, hq⟩ := h7.phases y hy
      obtain ⟨⟨id', rule⟩, hr1, rfl⟩ := List.mem_map.1 hid
      obtain ⟨s, hs⟩ := (hq.rows id').2 ⟨rule, hr1⟩
      obtain ⟨v, hv⟩ := (hq.keys ("Right-Of-Way Rule Type/" ++ id')).2 ⟨id', rule, hr1, rfl⟩
      obtain ⟨_, _, dr, _, -, -, -, hd', -⟩ := hq.discrete id' s v hs hv
      exact ⟨_, dr, hd', rfl⟩
    · obtain ⟨⟨id', rule⟩, hr1, rfl⟩ := List.mem_map.1 ((hcov k).1.1 hk)
      obtain ⟨l, -, hl'⟩ := hd.rules
      obtain ⟨e, -, -, -, he⟩ := forall₂_mem_right hl' hr1
      exact ⟨_, rule, he, rfl⟩

/-- C82: with a rulebook and the phase rings that were loaded with it, in either format, exactly those
documents are loaded that describe intersections with distinct ids whose rings are known and have the initial
phase. -/
theorem intersection_loader_with_loaded_rings (rulebook : Rulebook.Book) (lights : TrafficLights.Book)
    (hl : BuiltLights lights) (c : Conv) (ringRoot : Doc) (rings : Phases.Book)
    (hr : loadPhaseRings rulebook lights c ringRoot = .ok rings ∨ loadRowPhaseRings rulebook lights c ringRoot = .ok rings)
    (p : Provider) (root : Doc) :
    (∃ p' b, loadIntersections rulebook rings p root = (p', .ok b)) ↔
      ∃ docs xs, SaysIntersections root docs ∧ List.Forall₂ SaysIntersection docs xs ∧ (xs.map (·.id)).Nodup ∧
        ∀ x ∈ xs, ∃ r, KnownPhase rings x r := by
  obtain ⟨hb, hk⟩ : BuiltRings rings ∧ ∀ id r, getPhaseRing rings id = some r → KnownRules rulebook r := by
    rcases hr with hr | hr
    · exact loaded_rings_built _ _ hl _ _ _ hr
    · exact loaded_rowRings_built _ _ hl _ _ _ hr
  constructor
  · rintro ⟨p', b, h⟩
    obtain ⟨docs, xs, is, h1, h2, h3, h4, -⟩ := intersection_loader_sound _ _ hb _ _ _ _ h
    refine ⟨docs, xs, h1, h2, h3, fun x hx => ?_⟩
    obtain ⟨r, hr, -⟩ := h4 x hx
    exact ⟨r, hr⟩
  · rintro ⟨docs, xs, h1, h2, h3, h4⟩
    refine intersection_loader_complete _ _ hb _ _ docs xs h1 h2 h3 fun x hx => ?_
    obtain ⟨r, hr⟩ := h4 x hx
    exact ⟨r, hr, hk _ _ hr.1⟩

/-! ### Documents -/

/-- An intersection. -/
def intersectionDoc (id ring phase : String) : Doc :=
  docMap [("ID", .scalar id), ("PhaseRing", .scalar ring), ("InitialPhase", .scalar phase)]

/-- A document with intersections. -/
def intersectionsDoc (l : List Doc) : Doc := docMap [("Intersections", .seq l)]

/-- The phase that the provider has for the ring after loading the document with the rings of `goodRing`, and
how loading ended. -/
def loadedPhase (rulebook : Rulebook.Book) (p : Provider) (root : Doc) (ring : String) :
    Except Err (Option (Result String) × Option Err) := do
  let rings ← loadPhaseRings twoRules oneLight docConv goodRing
  match loadIntersections rulebook rings p root with
  | (p', .ok _) => return (p'.getPhase ring, none)
  | (p', .error e) => return (p'.getPhase ring, some e)

/-- The region of the intersection that is loaded. -/
def loadedRegion (p : Provider) (root : Doc) (id : String) : Except Err (Option (List LaneSRange)) := do
  let rings ← loadPhaseRings twoRules oneLight docConv goodRing
  let b ← (loadIntersections twoRules rings p root).2
  return (b.getIntersection id).map (·.region)

/-- An intersection is loaded; its region has the zones of both rules, its ring the initial phase and the
first of the next phases. -/
theorem intersectionDoc_loads :
    loadedRegion .empty (intersectionsDoc [intersectionDoc "i" "r" "one"]) "i" =
      .ok (some [⟨"a", 0, 5⟩, ⟨"a", 0, 5⟩]) ∧
    loadedPhase twoRules .empty (intersectionsDoc [intersectionDoc "i" "r" "one"]) "r" =
      .ok (some ⟨"one", some ("two", some 5)⟩, none) := by
  decide +kernel

/-- C82: two intersections may share a ring; the phase is the one of the last of them, also for the first. -/
theorem intersection_loader_shared_ring :
    loadedPhase twoRules .empty (intersectionsDoc [intersectionDoc "i" "r" "one", intersectionDoc "j" "r" "two"]) "r" =
      .ok (some ⟨"two", some ("one", none)⟩, none) := by
  decide +kernel

/-- C82: a document that is rejected has changed the phases: the second intersection names an unknown ring. -/
theorem intersection_loader_failure_changes :
    loadedPhase twoRules (.ofList [("r", ⟨"two", none⟩)])
      (intersectionsDoc [intersectionDoc "i" "r" "one", intersectionDoc "j" "unknown" "one"]) "r" =
      .ok (some ⟨"one", some ("two", some 5)⟩, some .throws) := by
  decide +kernel

/-- C82: the behaviour is undefined if an id is repeated. -/
theorem intersection_loader_duplicate :
    loadedPhase twoRules .empty (intersectionsDoc [intersectionDoc "i" "r" "one", intersectionDoc "i" "r" "two"]) "r" =
      .ok (some ⟨"two", some ("one", none)⟩, some .ub) := by
  decide +kernel

/-- Without the rules of the ring in the rulebook an `std::out_of_range` escapes; an unknown phase throws; a
document without intersections gives an empty book. -/
example :
    loadedPhase .empty .empty (intersectionsDoc [intersectionDoc "i" "r" "one"]) "r" =
      .ok (some ⟨"one", some ("two", some 5)⟩, some .outOfRange) ∧
    loadedPhase twoRules .empty (intersectionsDoc [intersectionDoc "i" "r" "three"]) "r" = .ok (none, some .throws) ∧
    loadedPhase twoRules .empty (docMap []) "r" = .ok (none, none) ∧
    loadedPhase twoRules .empty (docMap [("Intersections", .null)]) "r" = .ok (none, some .throws) := by
  decide +kernel

/-- The hypotheses of the theorems are met by the rings of `goodRing`. -/
example : ∃ rings, loadPhaseRings twoRules oneLight docConv goodRing = .ok rings ∧ BuiltRings rings ∧
    ∃ r, getPhaseRing rings "r" = some r := by
  have h : (do
      let b ← loadPhaseRings twoRules oneLight docConv goodRing
      return (getPhaseRing b "r").isSome : Except Err Bool) = .ok true := by decide +kernel
  rw [bind_ok] at h
  obtain ⟨b, h, h'⟩ := h
  exact ⟨b, h, (loaded_rings_built _ _ oneLight_built _ _ _ h).1, Option.isSome_iff_exists.1 (pure_ok.1 h')⟩

end Maliput.Props
