import Mathlib.Algebra.Order.BigOperators.Group.List
import Mathlib.Algebra.Order.Ring.Nat
import Verif.Lemmas.EventHistory

set_option autoImplicit false

/-!
C140: collections of events hold the events that were added to them, and a leaf system handles each of them once, in this order.  Theorems
are about any allocator.
-/
namespace Maliput.Props
open Maliput EventColl EventColl.Spec

variable {E S D : Type}

/-- No collections. -/
def noColls (E : Type) : World E := ⟨[], []⟩

/-- An allocator that uses the address 0 again and again, as long as it is free, and otherwise a new one; it never gives more room than
needed. -/
def reusingAlloc (E : Type) : Allocator E where
  place m := if m.any (fun b => b.live && b.addr == 0) then (m.map (·.addr)).sum + 1 else 0
  room n := n
  free m b hb hl := by
    split
    · have : b.addr ≤ (m.map (·.addr)).sum := List.single_le_sum (fun _ _ => Nat.zero_le _) _ (List.mem_map_of_mem hb)
      omega
    · rename_i h
      intro h0
      exact h (List.any_eq_true.2 ⟨b, hb, by simp [hl, h0]⟩)
  enough n := le_refl n

/-- Two leaf systems in a diagram, and another diagram of the same kind. -/
def twoLeaves (i j : Nat) : Tree := .diagram 2 fun k => if k = 0 then .leaf i else .leaf j

/-- Four collections are made. -/
def firstCalls : List (Op Nat) := [.make, .make, .makeForced 5, .make]

/-- The first one grows beyond its room. -/
def manyAdds : List (Op Nat) := (List.range 33).map fun e => .add (.leaf 0) e

/-- Then collections are copied, added, emptied and destroyed. -/
def eventCalls : List (Op Nat) :=
  (firstCalls ++ manyAdds) ++ [.setFrom (twoLeaves 1 3) (twoLeaves 0 2), .reserve 2 7, .addToEnd (twoLeaves 0 2) (twoLeaves 1 3),
    .clear (.leaf 1), .destroy 3]

theorem adds_valid (n : Nat) : ∀ (l : List Nat) (p : Plains Nat) (x : Plain Nat), Has p n x →
    AllValid p (l.map fun e => .add (.leaf n) e) ∧
      meantRun p (l.map fun e => .add (.leaf n) e) = p.set n (some { x with events := x.events ++ l }) := by
  intro l
  induction l with
  | nil =>
    intro p x h
    refine ⟨trivial, ?_⟩
    have := change_set h id
    rw [List.append_nil]
    exact (List.ext_getElem? fun k => by
      by_cases hk : n = k
      · subst hk
        rw [List.getElem?_set_self (List.getElem?_eq_some_iff.1 h).1]
        exact h
      · rw [List.getElem?_set_ne hk]
        rfl)
  | cons e l ih =>
    intro p x h
    have hm : meant p (.add (.leaf n) e) = p.set n (some { x with events := x.events ++ [e] }) := by
      rw [meant, leaves, List.foldl_cons, List.foldl_nil, change_set h]
    obtain ⟨h1, h2⟩ := ih _ _ (h.set_self (y := { x with events := x.events ++ [e] }))
    refine ⟨⟨⟨n, x, rfl, h⟩, by rw [hm]; exact h1⟩, ?_⟩
    show meantRun (meant p (.add (.leaf n) e)) _ = _
    rw [hm, h2]
    simp

theorem twoLeaves_leaves (i j : Nat) : leaves (twoLeaves i j) = [i, j] := rfl

theorem twoLeaves_live {p : Plains Nat} {i j : Nat} {x y : Plain Nat} (hi : Has p i x) (hj : Has p j y) : Live p (twoLeaves i j) := by
  refine ⟨fun k => ?_, fun m hm => ?_⟩
  · show Complete (if k = 0 then .leaf i else .leaf j)
    split <;> trivial
  · rw [twoLeaves_leaves] at hm
    simp at hm
    rcases hm with rfl | rfl
    exacts [⟨x, hi⟩, ⟨y, hj⟩]

theorem twoLeaves_shape (i j i' j' : Nat) : SameShape (twoLeaves i j) (twoLeaves i' j') := by
  refine ⟨rfl, fun k => ?_⟩
  show SameShape (if k = 0 then .leaf i else .leaf j) (if k = 0 then .leaf i' else .leaf j')
  split <;> trivial

/-- The collections before the diagrams are used. -/
def fourColls : Plains Nat := [some ⟨List.range 33, 32⟩, some ⟨[], 32⟩, some ⟨[5], 32⟩, some ⟨[], 32⟩]

theorem eventCalls_start : AllValid [] (firstCalls ++ manyAdds) ∧ meantRun [] (firstCalls ++ manyAdds) = fourColls := by
  have h0 : meantRun [] firstCalls = [some ⟨[], 32⟩, some ⟨[], 32⟩, some ⟨[5], 32⟩, some ⟨[], 32⟩] := rfl
  obtain ⟨h1, h2⟩ := adds_valid 0 (List.range 33) (meantRun [] firstCalls) ⟨[], 32⟩ (by rw [h0]; rfl)
  refine ⟨(allValid_append _ _ _).2 ⟨⟨trivial, trivial, trivial, trivial, trivial⟩, h1⟩, ?_⟩
  rw [meantRun_append, manyAdds, h2, h0]
  rfl

theorem eventCalls_valid : AllValid [] eventCalls ∧ meantRun [] eventCalls =
    [some ⟨List.range 33 ++ List.range 33, 32⟩, some ⟨[], 32⟩, some ⟨[5, 5], 32⟩, none] := by
  obtain ⟨h1, h2⟩ := eventCalls_start
  rw [eventCalls, allValid_append, h2, meantRun_append [] (firstCalls ++ manyAdds), h2]
  refine ⟨⟨h1, ⟨twoLeaves_live (x := ⟨[], 32⟩) (y := ⟨[], 32⟩) rfl rfl, twoLeaves_live (x := ⟨List.range 33, 32⟩) (y := ⟨[5], 32⟩) rfl rfl,
    twoLeaves_shape _ _ _ _, by decide⟩, ⟨⟨[5], 32⟩, rfl, .inr (by decide)⟩, ⟨twoLeaves_live (x := ⟨List.range 33, 32⟩) (y := ⟨[5], 32⟩) rfl rfl,
    twoLeaves_live (x := ⟨List.range 33, 32⟩) (y := ⟨[5], 32⟩) rfl rfl, twoLeaves_shape _ _ _ _, by decide⟩,
    ⟨trivial, fun i hi => ⟨⟨List.range 33, 32⟩, by rw [List.mem_singleton.1 hi]; rfl⟩⟩, ⟨⟨[5], 32⟩, rfl⟩, trivial⟩, rfl⟩

/-- C140: calls with collections that exist succeed, and then following the pointers of a collection of a leaf system gives exactly the
events it is to hold, in order; none of the pointers dangles. `Valid` leaves out that room for more events is made in a collection with
events, and that a collection is added or copied to itself (`reserve_dangles`, `adding_to_itself`, `setting_from_itself`). -/
theorem event_collections_partial (A : Allocator E) (ops : List (Op E)) (hv : AllValid [] ops) :
    ∃ w, run A (noColls E) ops = .ok w ∧ ∀ i x, Has (meantRun [] ops) i x → getEvents w i = .ok x.events := by
  obtain ⟨w, h1, h2, -⟩ := run_refines A ops Refines.empty hv
  exact ⟨w, h1, fun i x hx => getEvents_refines h2 hx⟩

example : ∃ w, run (reusingAlloc Nat) (noColls Nat) eventCalls = .ok w ∧ getEvents w 0 = .ok (List.range 33 ++ List.range 33) ∧
    getEvents w 2 = .ok [5, 5] := by
  obtain ⟨w, h, h'⟩ := event_collections_partial (reusingAlloc Nat) eventCalls eventCalls_valid.1
  rw [eventCalls_valid.2] at h'
  exact ⟨w, h, h' 0 _ rfl, h' 2 _ rfl⟩

/-- C140: `HasEvents` of a collection, also of a diagram, tells whether one of its leaf systems has events. -/
theorem collection_has_events (A : Allocator E) (ops : List (Op E)) (hv : AllValid [] ops) (w : World E)
    (hr : run A (noColls E) ops = .ok w) (t : Tree) (ht : Live (meantRun [] ops) t) :
    ∃ b, t.hasEvents w = .ok b ∧ (b = true ↔ ∃ i ∈ leaves t, ∃ x, Has (meantRun [] ops) i x ∧ x.events ≠ []) := by
  obtain ⟨w', h1, h2, -⟩ := run_refines A ops Refines.empty hv
  obtain rfl : w' = w := by rw [noColls, h1] at hr; injection hr
  refine ⟨_, hasEvents_refines h2 ht, ?_⟩
  rw [List.any_eq_true]
  constructor
  · rintro ⟨i, hi, he⟩
    obtain ⟨x, hx⟩ := ht.2 i hi
    rw [eventsOf_has hx] at he
    exact ⟨i, hi, x, hx, by simpa using he⟩
  · rintro ⟨i, hi, x, hx, he⟩
    exact ⟨i, hi, by rw [eventsOf_has hx]; simpa using he⟩

example : ∃ w, run (reusingAlloc Nat) (noColls Nat) eventCalls = .ok w ∧ (twoLeaves 1 2).hasEvents w = .ok true ∧
    (twoLeaves 1 1).hasEvents w = .ok false := by
  obtain ⟨w, h, -⟩ := event_collections_partial (reusingAlloc Nat) eventCalls eventCalls_valid.1
  obtain ⟨b, h1, h2⟩ := collection_has_events _ _ eventCalls_valid.1 w h (twoLeaves 1 2)
    (by rw [eventCalls_valid.2]; exact twoLeaves_live (x := ⟨[], 32⟩) (y := ⟨[5, 5], 32⟩) rfl rfl)
  obtain ⟨c, h3, h4⟩ := collection_has_events _ _ eventCalls_valid.1 w h (twoLeaves 1 1)
    (by rw [eventCalls_valid.2]; exact twoLeaves_live (x := ⟨[], 32⟩) (y := ⟨[], 32⟩) rfl rfl)
  rw [eventCalls_valid.2] at h2 h4
  obtain rfl := h2.2 ⟨2, by simp [twoLeaves_leaves], ⟨[5, 5], 32⟩, rfl, nofun⟩
  refine ⟨w, h, h1, ?_⟩
  cases c with
  | false => exact h3
  | true =>
    obtain ⟨i, hi, x, hx, he⟩ := h4.1 rfl
    simp [twoLeaves_leaves] at hi
    subst hi
    cases hx
    exact absurd rfl he

/-- C140: after copying the collection of a diagram, each leaf system of the copy has the events of the leaf system in the same place;
after adding it, these come after the events that were there. Nothing else changes. -/
theorem collections_added_and_copied (A : Allocator E) (ops : List (Op E)) (hv : AllValid [] ops) (t other : Tree)
    (ht : Live (meantRun [] ops) t) (ho : Live (meantRun [] ops) other) (hs : SameShape t other)
    (hd : ∀ i ∈ leaves t, i ∉ leaves other) (hn : (leaves t).Nodup) :
    ∃ w added copied, run A (noColls E) ops = .ok w ∧ t.addToEnd A other w = .ok added ∧ t.setFrom A other w = .ok copied ∧
      (∀ i j, (i, j) ∈ (leaves t).zip (leaves other) → ∃ old new, getEvents w i = .ok old ∧ getEvents w j = .ok new ∧
        getEvents added i = .ok (old ++ new) ∧ getEvents copied i = .ok new) ∧
      ∀ k x, Has (meantRun [] ops) k x → k ∉ leaves t → getEvents w k = .ok x.events ∧ getEvents added k = .ok x.events ∧
        getEvents copied k = .ok x.events := by
  obtain ⟨w, h1, h2, -⟩ := run_refines A ops Refines.empty hv
  obtain ⟨wa, h3, h4, -⟩ := exec_refines A h2 (op := .addToEnd t other) ⟨ht, ho, hs, hd⟩
  obtain ⟨wc, h5, h6, -⟩ := exec_refines A h2 (op := .setFrom t other) ⟨ht, ho, hs, hd⟩
  have hz : ((leaves t).zip (leaves other)).map (·.1) = leaves t := List.map_fst_zip hs.leaves_length.le
  have hd' : ∀ ij ∈ (leaves t).zip (leaves other), ij.2 ∉ ((leaves t).zip (leaves other)).map (·.1) := by
    intro ij hij hm
    rw [hz] at hm
    exact hd _ hm (mem_zip hij).2
  refine ⟨w, wa, wc, h1, h3, h5, ?_, ?_⟩
  · intro i j hij
    obtain ⟨m1, m2⟩ := mem_zip hij
    obtain ⟨x, hx⟩ := ht.2 i m1
    obtain ⟨y, hy⟩ := ho.2 j m2
    refine ⟨x.events, y.events, getEvents_refines h2 hx, getEvents_refines h2 hy, ?_, ?_⟩
    · exact getEvents_refines h4 (appended_mem _ hx hy hij (by rw [hz]; exact hn) hd')
    · obtain ⟨x', hx', -, he, -⟩ := emptied_live (leaves t) hx
      have hy' : Has (emptied (meantRun [] ops) (leaves t)) j y := emptied_ne _ hy fun hm => hd j hm m2
      have := getEvents_refines h6 (appended_mem _ hx' hy' hij (by rw [hz]; exact hn) hd')
      rw [he m1] at this
      exact this
  · intro k x hx hk
    refine ⟨getEvents_refines h2 hx, getEvents_refines h4 (appended_ne _ hx (by rw [hz]; exact hk)), ?_⟩
    exact getEvents_refines h6 (appended_ne _ (emptied_ne _ hx hk) (by rw [hz]; exact hk))

example : ∃ w added copied, run (reusingAlloc Nat) (noColls Nat) (firstCalls ++ manyAdds) = .ok w ∧
    (twoLeaves 3 2).addToEnd (reusingAlloc Nat) (twoLeaves 1 0) w = .ok added ∧
    (twoLeaves 3 2).setFrom (reusingAlloc Nat) (twoLeaves 1 0) w = .ok copied ∧
    getEvents added 2 = .ok (5 :: List.range 33) ∧ getEvents copied 2 = .ok (List.range 33) := by
  obtain ⟨w, a, c, h1, h2, h3, h4, -⟩ := collections_added_and_copied (reusingAlloc Nat) _ eventCalls_start.1 (twoLeaves 3 2)
    (twoLeaves 1 0) (by rw [eventCalls_start.2]; exact twoLeaves_live (x := ⟨[], 32⟩) (y := ⟨[5], 32⟩) rfl rfl)
    (by rw [eventCalls_start.2]; exact twoLeaves_live (x := ⟨[], 32⟩) (y := ⟨List.range 33, 32⟩) rfl rfl) (twoLeaves_shape _ _ _ _)
    (by decide) (by decide)
  obtain ⟨old, new, e1, e2, e3, e4⟩ := h4 2 0 (by decide)
  obtain ⟨w', r1, r2⟩ := event_collections_partial (reusingAlloc Nat) _ eventCalls_start.1
  obtain rfl : w' = w := by rw [r1] at h1; injection h1
  rw [eventCalls_start.2] at r2
  rw [r2 2 _ rfl] at e1
  rw [r2 0 _ rfl] at e2
  cases e1
  cases e2
  exact ⟨w', a, c, r1, h2, h3, e3, e4⟩

/-- C140: a pointer to an event in a collection still leads to this event after any calls that do not remove it, as long as the collection
has room for its events. -/
theorem event_pointers_stay (A : Allocator E) (ops later : List (Op E)) (hv : AllValid [] (ops ++ later)) (w w' : World E)
    (hw : run A (noColls E) ops = .ok w) (hw' : run A w later = .ok w') (i k : Nat) (c : Coll) (q : Ptr) (x x' : Plain E)
    (hc : w.coll i = .ok c) (hq : c.events[k]? = some q) (hx : Has (meantRun [] ops) i x)
    (hk : ∀ op ∈ later, Keeps i op) (hx' : Has (meantRun [] (ops ++ later)) i x') (hroom : x'.events.length ≤ x.room) :
    ∃ e, x.events[k]? = some e ∧ deref w.mem q = .ok e ∧ deref w'.mem q = .ok e := by
  obtain ⟨v1, v2⟩ := (allValid_append _ _ _).1 hv
  obtain ⟨u, h1, h2, -⟩ := run_refines A ops Refines.empty v1
  obtain rfl : u = w := by rw [noColls, h1] at hw; injection hw
  obtain ⟨u', h3, h4, h5⟩ := run_refines A later h2 v2
  obtain rfl : u' = w' := by rw [h3] at hw'; injection hw'
  obtain ⟨c', hc', hh⟩ := h2.holds i x hx
  obtain rfl : c' = c := by rw [coll_ok hc'] at hc; injection hc
  obtain ⟨q1, q2, e, he⟩ := hh.pointer hq
  have hd := hh.deref he q.addr
  rw [← q1, ← q2] at hd
  have hne : x.events ≠ [] := by
    intro hn
    rw [hn] at he
    cases he
  obtain ⟨y, e1, -, e3, e4⟩ := h5 i hk x hx hne
  rw [meantRun_append] at hx'
  obtain rfl := e1.unique hx'
  obtain ⟨d, hd', hs⟩ := e4 hroom c' hc'
  obtain ⟨z, hz, hzh⟩ := h4.has hd'
  obtain rfl := hz.unique e1
  obtain ⟨rest, hrest⟩ := e3
  have hez : z.events[k]? = some e := by
    rw [← hrest, List.getElem?_append_left (List.getElem?_eq_some_iff.1 he).1, he]
  have hd2 := hzh.deref hez q.addr
  rw [hs, ← q1, ← q2] at hd2
  exact ⟨e, he, hd, hd2⟩

example : ∃ w w' c q, run (reusingAlloc Nat) (noColls Nat) [.make, .add (.leaf 0) 7, .make] = .ok w ∧
    run (reusingAlloc Nat) w [.add (.leaf 0) 8, .destroy 1, .make, .add (.leaf 2) 9] = .ok w' ∧ w.coll 0 = .ok c ∧ c.events[0]? = some q ∧
    deref w'.mem q = .ok 7 := by
  have hv : AllValid [] ([.make, .add (.leaf 0) 7, .make] ++ [.add (.leaf 0) 8, .destroy 1, .make, .add (.leaf 2) (9 : Nat)]) :=
    ⟨trivial, ⟨0, ⟨[], 32⟩, rfl, rfl⟩, trivial, ⟨0, ⟨[7], 32⟩, rfl, rfl⟩, ⟨⟨[], 32⟩, rfl⟩, trivial, ⟨2, ⟨[], 32⟩, rfl, rfl⟩, trivial⟩
  obtain ⟨e, h1, -, h3⟩ := event_pointers_stay (reusingAlloc Nat) _ _ hv _ _ rfl rfl 0 0 ⟨0, [⟨0, 0, 0⟩]⟩ ⟨0, 0, 0⟩ ⟨[7], 32⟩ ⟨[7, 8], 32⟩
    rfl rfl rfl (by intro op h; simp at h; rcases h with rfl | rfl | rfl | rfl <;> simp [Keeps]) rfl (by decide)
  cases h1
  exact ⟨_, _, _, _, rfl, rfl, rfl, rfl, h3⟩

/-- C140: collections that are not for the same diagram are never added to each other. -/
theorem different_diagrams (A : Allocator E) (a b : Tree) (w w' : World E) (h : a.addToEnd A b w = .ok w') : SameShape a b :=
  addToEnd_shape A h

example : ∃ w, (twoLeaves 0 1).addToEnd (reusingAlloc Nat) (twoLeaves 2 3) w = .ok w ∧ ¬ SameShape (twoLeaves 0 1) (.leaf 2) :=
  ⟨⟨[], [some ⟨0, []⟩, some ⟨0, []⟩, some ⟨0, []⟩, some ⟨0, []⟩]⟩, rfl, id⟩

/-- C140: the collections of a diagram are those of its subsystems: an event that is added to one of these is in the diagram's, too. -/
theorem diagram_collections (subs : List Composite)
    (h : ∀ c ∈ subs, c.publish ≠ .null ∧ c.discrete ≠ .null ∧ c.unrestricted ≠ .null) : ∃ c, Composite.makeDiagram subs = .ok c ∧
      (∀ k s, subs[k]? = some s → c.publish.getSub (k : Nat) = .ok s.publish ∧ c.discrete.getSub (k : Nat) = .ok s.discrete ∧
        c.unrestricted.getSub (k : Nat) = .ok s.unrestricted) ∧
      ∀ i, (i ∈ leaves c.publish ↔ ∃ s ∈ subs, i ∈ leaves s.publish) ∧ (i ∈ leaves c.discrete ↔ ∃ s ∈ subs, i ∈ leaves s.discrete) ∧
        (i ∈ leaves c.unrestricted ↔ ∃ s ∈ subs, i ∈ leaves s.unrestricted) := by
  have hloop := makeDiagram_loop (n := subs.length) subs 0 (fun _ => .null) (fun _ => .null) (fun _ => .null) (by simp) h
  refine ⟨_, hloop, ?_, ?_⟩
  · intro k s hk
    obtain ⟨hlt, hs⟩ := List.getElem?_eq_some_iff.1 hk
    obtain ⟨n1, n2, n3⟩ := h s (List.mem_of_getElem? hk)
    have key : ∀ (f : Composite → Tree), f s ≠ .null →
        (Tree.diagram subs.length (pointers (fun _ => .null) 0 (subs.map f))).getSub (k : Nat) = .ok (f s) := by
      intro f hf
      have hp : pointers (n := subs.length) (fun _ => .null) 0 (subs.map f) ⟨k, hlt⟩ = f s := by
        simp [pointers, hlt, hs]
      rw [Tree.getSub, dif_pos (by omega)]
      simp only [Int.toNat_natCast, hp]
    exact ⟨key _ n1, key _ n2, key _ n3⟩
  · intro i
    have key : ∀ (f : Composite → Tree), i ∈ leaves (.diagram subs.length (pointers (fun _ => .null) 0 (subs.map f))) ↔
        ∃ s ∈ subs, i ∈ leaves (f s) := by
      intro f
      have hp : ∀ k : Fin subs.length, pointers (fun _ => .null) 0 (subs.map f) k = f subs[k] := by
        intro k
        simp [pointers]
      rw [leaves, List.mem_flatMap]
      constructor
      · rintro ⟨k, -, hk⟩
        rw [hp] at hk
        exact ⟨_, List.getElem_mem k.2, hk⟩
      · rintro ⟨s, hs, hi⟩
        obtain ⟨k, hk, rfl⟩ := List.mem_iff_getElem.1 hs
        exact ⟨⟨k, hk⟩, List.mem_finRange _, by rw [hp]; exact hi⟩
    exact ⟨key _, key _, key _⟩

example : ∃ c, Composite.makeDiagram [⟨.leaf 0, .leaf 1, .leaf 2⟩, ⟨.leaf 3, .leaf 4, .leaf 5⟩] = .ok c ∧ 4 ∈ leaves c.discrete ∧
    c.publish.getSub 1 = .ok (.leaf 3) := by
  obtain ⟨c, h1, h2, h3⟩ := diagram_collections [⟨.leaf 0, .leaf 1, .leaf 2⟩, ⟨.leaf 3, .leaf 4, .leaf 5⟩] (by simp)
  exact ⟨c, h1, (h3 4).2.1.2 ⟨⟨.leaf 3, .leaf 4, .leaf 5⟩, List.mem_cons_of_mem _ (List.mem_singleton.2 rfl), List.mem_singleton.2 rfl⟩, (h2 1 _ rfl).1⟩

/-- C140: with all kinds of events, clearing, adding and copying is done kind by kind. -/
theorem composite_calls (A : Allocator E) (c other : Composite) (w : World E) :
    c.clear w = run A w [.clear c.publish, .clear c.discrete, .clear c.unrestricted] ∧
    c.addToEnd A other w = run A w
      [.addToEnd c.publish other.publish, .addToEnd c.discrete other.discrete, .addToEnd c.unrestricted other.unrestricted] ∧
    c.setFrom A other w = run A w
      [.setFrom c.publish other.publish, .setFrom c.discrete other.discrete, .setFrom c.unrestricted other.unrestricted] := by
  have h : ∀ x : Except Err (World E), (x >>= pure) = x := by intro x; cases x <;> rfl
  simp only [run, List.foldlM_cons, List.foldlM_nil, exec, Composite.clear, Composite.addToEnd, Composite.setFrom, h, and_self]

/-- C140: a collection with all kinds of events has events if there is one of some kind. -/
theorem composite_has_events (c : Composite) (w : World E) (p d u : Bool) (hp : c.publish.hasEvents w = .ok p)
    (hd : c.discrete.hasEvents w = .ok d) (hu : c.unrestricted.hasEvents w = .ok u) : c.hasEvents w = .ok (p || d || u) := by
  simp only [Composite.hasEvents, hp, hd, hu, bind, Except.bind, pure, Except.pure]
  cases p <;> cases d <;> rfl

/-- The collections of a leaf system after an event of the second kind was added. -/
def oneDiscreteEvent : World Nat :=
  ⟨[⟨0, 32, [], true⟩, ⟨1, 32, [4], true⟩, ⟨2, 32, [], true⟩], [some ⟨0, []⟩, some ⟨1, [⟨1, 1, 0⟩]⟩, some ⟨2, []⟩]⟩

example : run (reusingAlloc Nat) (noColls Nat) [.make, .make, .make, .add (.leaf 1) 4] = .ok oneDiscreteEvent ∧
    (⟨.leaf 0, .leaf 1, .leaf 2⟩ : Composite).hasEvents oneDiscreteEvent = .ok true :=
  ⟨rfl, composite_has_events _ _ false true false rfl rfl rfl⟩

/-! ### Handling -/

theorem handleAll_eq {w : World E} {p : Plains E} (h : Refines w p) {i : Nat} {c : Coll} {x : Plain E} (hx : Has p i x)
    (hc : w.colls[i]? = some (some c)) (handle : E → S → Except Err S) : ∀ (l pre : List Ptr) (s : S), c.events = pre ++ l →
      handleAll handle w.mem l s = (x.events.drop pre.length).foldlM (fun s e => handle e s) s := by
  obtain ⟨z, hz, hh⟩ := h.has hc
  obtain rfl := hz.unique hx
  intro l
  induction l with
  | nil =>
    intro pre s he
    have := hh.events_length
    rw [he, List.append_nil] at this
    rw [this, List.drop_length]
    rfl
  | cons q l ih =>
    intro pre s he
    have hq : c.events[pre.length]? = some q := by rw [he]; simp
    obtain ⟨h1, h2, e, h3⟩ := hh.pointer hq
    have hd := hh.deref h3 q.addr
    rw [← h1, ← h2] at hd
    obtain ⟨hlt, he'⟩ := List.getElem?_eq_some_iff.1 h3
    rw [List.drop_eq_getElem_cons hlt, he', List.foldlM_cons, handleAll, show deref w.mem q = .ok e from hd]
    show (handle e s >>= fun s => handleAll handle w.mem l s) = _
    refine bind_congr fun s => ?_
    have := ih (pre ++ [q]) s (by rw [he]; simp)
    rw [this]
    simp

theorem leafEvents_eq {w : World E} {p : Plains E} (h : Refines w p) {i : Nat} {c : Coll} {x : Plain E} (hx : Has p i x)
    (hc : w.colls[i]? = some (some c)) : leafEvents w (.leaf i) = if x.events = [] then .error .aborts else .ok c.events := by
  simp only [leafEvents, leafHasEvents_refines h hx, bind, Except.bind, coll_ok hc, pure, Except.pure]
  by_cases hn : x.events = [] <;> simp [hn]

/-- C140: publishing handles each event of the collection once, in the order in which they were added; without events the process is
aborted. -/
theorem publishing_events (A : Allocator E) (ops : List (Op E)) (hv : AllValid [] ops) (w : World E)
    (hr : run A (noColls E) ops = .ok w) (i : Nat) (x : Plain E) (hx : Has (meantRun [] ops) i x)
    (handle : E → S → Except Err S) (s : S) :
    publish handle w (.leaf i) s =
      if x.events = [] then .error .aborts else x.events.foldlM (fun s e => handle e s) s := by
  obtain ⟨w', h1, h2, -⟩ := run_refines A ops Refines.empty hv
  obtain rfl : w' = w := by rw [noColls, h1] at hr; injection hr
  obtain ⟨c, hc, -⟩ := h2.holds i x hx
  rw [publish, leafEvents_eq h2 hx hc]
  by_cases hn : x.events = []
  · rw [if_pos hn, if_pos hn]; rfl
  · rw [if_neg hn, if_neg hn]
    exact handleAll_eq h2 hx hc handle c.events [] s rfl

example : ∃ w, run (reusingAlloc Nat) (noColls Nat) eventCalls = .ok w ∧
    publish (fun e s => .ok (s ++ [e])) w (.leaf 2) [] = .ok [5, 5] ∧ publish (fun e s => .ok (s ++ [e])) w (.leaf 1) [] = .error .aborts := by
  obtain ⟨w, h, -⟩ := event_collections_partial (reusingAlloc Nat) eventCalls eventCalls_valid.1
  refine ⟨w, h, ?_, ?_⟩
  · rw [publishing_events _ _ eventCalls_valid.1 w h 2 ⟨[5, 5], 32⟩ (by rw [eventCalls_valid.2]; rfl)]
    rfl
  · rw [publishing_events _ _ eventCalls_valid.1 w h 1 ⟨[], 32⟩ (by rw [eventCalls_valid.2]; rfl)]
    rfl

/-- C140: the updated discrete state is what the events make of the discrete state of the context, one after the other. -/
theorem discrete_updates (A : Allocator E) (ops : List (Op E)) (hv : AllValid [] ops) (w : World E)
    (hr : run A (noColls E) ops = .ok w) (i : Nat) (x : Plain E) (hx : Has (meantRun [] ops) i x)
    (setFrom : S → S → Except Err S) (handle : E → S → Except Err S) (current s : S) :
    calcDiscreteUpdates setFrom handle w (.leaf i) current s =
      if x.events = [] then .error .aborts else setFrom s current >>= x.events.foldlM (fun s e => handle e s) := by
  obtain ⟨w', h1, h2, -⟩ := run_refines A ops Refines.empty hv
  obtain rfl : w' = w := by rw [noColls, h1] at hr; injection hr
  obtain ⟨c, hc, -⟩ := h2.holds i x hx
  rw [calcDiscreteUpdates, leafEvents_eq h2 hx hc]
  by_cases hn : x.events = []
  · rw [if_pos hn, if_pos hn]; rfl
  · rw [if_neg hn, if_neg hn]
    exact bind_congr fun s => handleAll_eq h2 hx hc handle c.events [] s rfl

example : ∃ w, run (reusingAlloc Nat) (noColls Nat) eventCalls = .ok w ∧
    calcDiscreteUpdates (fun _ c => .ok c) (fun e s => .ok (s * 10 + e)) w (.leaf 2) 3 1000 = .ok 355 := by
  obtain ⟨w, h, -⟩ := event_collections_partial (reusingAlloc Nat) eventCalls eventCalls_valid.1
  refine ⟨w, h, ?_⟩
  rw [discrete_updates _ _ eventCalls_valid.1 w h 2 ⟨[5, 5], 32⟩ (by rw [eventCalls_valid.2]; rfl)]
  rfl

/-- C140: the updated state is what the events make of the state of the context, one after the other, and its dimensions are not changed. -/
theorem unrestricted_updates [DecidableEq D] (A : Allocator E) (ops : List (Op E)) (hv : AllValid [] ops) (w : World E)
    (hr : run A (noColls E) ops = .ok w) (i : Nat) (x : Plain E) (hx : Has (meantRun [] ops) i x) (dims : S → D)
    (setFrom : S → S → Except Err S) (handle : E → S → Except Err S) (current s s' : S) :
    calcUnrestrictedUpdate dims setFrom handle w (.leaf i) current s = .ok s' ↔
      x.events ≠ [] ∧ dims s' = dims s ∧ ∃ s0, setFrom s current = .ok s0 ∧ x.events.foldlM (fun s e => handle e s) s0 = .ok s' := by
  obtain ⟨w', h1, h2, -⟩ := run_refines A ops Refines.empty hv
  obtain rfl : w' = w := by rw [noColls, h1] at hr; injection hr
  obtain ⟨c, hc, -⟩ := h2.holds i x hx
  rw [calcUnrestrictedUpdate, leafEvents_eq h2 hx hc]
  by_cases hn : x.events = []
  · rw [if_pos hn]
    simp [hn, bind, Except.bind]
  · rw [if_neg hn]
    have hh : ∀ s0, handleAll handle w'.mem c.events s0 = x.events.foldlM (fun s e => handle e s) s0 := fun s0 =>
      handleAll_eq h2 hx hc handle c.events [] s0 rfl
    have h0 : ∀ {α : Type} (v : List Ptr) (f : List Ptr → Except Err α), ((.ok v : Except Err (List Ptr)) >>= f) = f v := fun _ _ => rfl
    rw [h0]
    simp only [hh, bind_ok]
    constructor
    · rintro ⟨s0, e1, s1, e2, e3⟩
      by_cases hd : dims s = dims s1
      · rw [if_neg (not_not.2 hd)] at e3
        cases e3
        exact ⟨hn, hd.symm, s0, e1, e2⟩
      · rw [if_pos hd] at e3
        cases e3
    · rintro ⟨-, hd, s0, e1, e2⟩
      exact ⟨s0, e1, s', e2, by rw [if_neg (not_not.2 hd.symm)]; rfl⟩

example : ∃ w, run (reusingAlloc Nat) (noColls Nat) eventCalls = .ok w ∧
    calcUnrestrictedUpdate List.length (fun _ c => .ok c) (fun e s => .ok (s.map (· + e))) w (.leaf 2) [1, 2] [0, 0] = .ok [11, 12] ∧
    ¬ ∃ s, calcUnrestrictedUpdate List.length (fun _ c => .ok c) (fun e s => .ok (e :: s)) w (.leaf 2) [1, 2] [0, 0] = .ok s := by
  obtain ⟨w, h, -⟩ := event_collections_partial (reusingAlloc Nat) eventCalls eventCalls_valid.1
  refine ⟨w, h, ?_, ?_⟩
  · exact (unrestricted_updates _ _ eventCalls_valid.1 w h 2 ⟨[5, 5], 32⟩ (by rw [eventCalls_valid.2]; rfl) _ _ _ _ _ _).2
      ⟨nofun, rfl, _, rfl, rfl⟩
  · rintro ⟨s, hs⟩
    obtain ⟨-, h1, s0, h2, h3⟩ :=
      (unrestricted_updates _ _ eventCalls_valid.1 w h 2 ⟨[5, 5], 32⟩ (by rw [eventCalls_valid.2]; rfl) _ _ _ _ _ _).1 hs
    cases h2
    cases h3
    cases h1

/-- C140: the updated state is copied to the context if the collection has an event; otherwise the process is aborted. -/
theorem applied_updates (A : Allocator E) (ops : List (Op E)) (hv : AllValid [] ops) (w : World E)
    (hr : run A (noColls E) ops = .ok w) (t : Tree) (ht : Live (meantRun [] ops) t) (setFrom : S → S → Except Err S) (updated current : S) :
    ((∃ i ∈ leaves t, ∃ x, Has (meantRun [] ops) i x ∧ x.events ≠ []) → applyUpdate setFrom w t updated current = setFrom current updated) ∧
    ((∀ i ∈ leaves t, ∀ x, Has (meantRun [] ops) i x → x.events = []) → applyUpdate setFrom w t updated current = .error .aborts) := by
  obtain ⟨b, h1, h2⟩ := collection_has_events A ops hv w hr t ht
  simp only [applyUpdate, h1, bind, Except.bind]
  constructor
  · intro h
    rw [if_pos (h2.2 h)]
  · intro h
    rw [if_neg]
    intro hb
    obtain ⟨i, hi, x, hx, hne⟩ := h2.1 hb
    exact hne (h i hi x hx)

example : ∃ w, run (reusingAlloc Nat) (noColls Nat) eventCalls = .ok w ∧
    applyUpdate (fun _ u => .ok u) w (twoLeaves 1 2) 355 3 = .ok 355 ∧ applyUpdate (fun _ u => .ok u) w (.leaf 1) 355 3 = .error .aborts := by
  obtain ⟨w, h, -⟩ := event_collections_partial (reusingAlloc Nat) eventCalls eventCalls_valid.1
  refine ⟨w, h, ?_, ?_⟩
  · refine (applied_updates _ _ eventCalls_valid.1 w h (twoLeaves 1 2)
      (by rw [eventCalls_valid.2]; exact twoLeaves_live (x := ⟨[], 32⟩) (y := ⟨[5, 5], 32⟩) rfl rfl) _ _ _).1 ?_
    rw [eventCalls_valid.2]
    exact ⟨2, by simp [twoLeaves_leaves], ⟨[5, 5], 32⟩, rfl, nofun⟩
  · refine (applied_updates _ _ eventCalls_valid.1 w h (.leaf 1) ⟨trivial, fun i hi => ⟨⟨[], 32⟩, ?_⟩⟩ _ _ _).2 ?_
    · rw [eventCalls_valid.2, List.mem_singleton.1 hi]
      rfl
    · rw [eventCalls_valid.2]
      intro i hi x hx
      rw [List.mem_singleton.1 hi] at hx
      cases hx
      rfl

/-! ### What is excluded -/

/-- C140: room for more events in a collection with an event: its pointers dangle, although it has the event; when another event is added,
they are right again. -/
theorem reserve_dangles (A : Allocator E) (e e' : E) (n : Nat) (hn : A.room 32 < n) :
    ∃ w w', run A (noColls E) [.make, .add (.leaf 0) e, .reserve 0 n] = .ok w ∧ leafHasEvents w 0 = .ok true ∧
      getEvents w 0 = .error .ub ∧ exec A w (.add (.leaf 0) e') = .ok w' ∧ getEvents w' 0 = .ok [e, e'] := by
  have h1 : (0 : Nat) < A.room 32 := by have := A.enough 32; omega
  have h2 : ¬ n ≤ A.room 32 := by omega
  have h3 : 1 < A.room n := by have := A.enough n; have := A.enough 32; omega
  have hf := A.free [⟨A.place [], A.room 32, [e], true⟩] ⟨A.place [], A.room 32, [e], true⟩ (by simp) rfl
  dsimp only at hf
  refine ⟨⟨[⟨A.place [], A.room 32, [e], false⟩, ⟨A.place [⟨A.place [], A.room 32, [e], true⟩], A.room n, [e], true⟩],
      [some ⟨1, [⟨0, A.place [], 0⟩]⟩]⟩,
    ⟨[⟨A.place [], A.room 32, [e], false⟩, ⟨A.place [⟨A.place [], A.room 32, [e], true⟩], A.room n, [e, e'], true⟩],
      [some ⟨1, [⟨1, A.place [⟨A.place [], A.room 32, [e], true⟩], 0⟩, ⟨1, A.place [⟨A.place [], A.room 32, [e], true⟩], 1⟩]⟩]⟩,
    ?_, ?_, ?_, ?_, ?_⟩
  · simp [run, exec, noColls, EventColl.make, Tree.addEvent, EventColl.addEvent, World.coll, pushBack, blockAt, bind, Except.bind, pure,
      Except.pure, h1, reserve, reserveVec, h2, realloc, newPointers, pointerTo]
  · simp [leafHasEvents, World.coll, blockAt, bind, Except.bind, pure, Except.pure]
  · simp [getEvents, World.coll, bind, Except.bind, deref, blockAt]
  · simp [exec, Tree.addEvent, EventColl.addEvent, World.coll, pushBack, blockAt, bind, Except.bind, pure, Except.pure, h3, newPointers,
      pointerTo, hf, List.range_succ]
  · simp [getEvents, World.coll, bind, Except.bind, deref, blockAt, pure, Except.pure]

/-- C140: a collection that is added to itself: the loop is over the vector that it changes. -/
theorem adding_to_itself (A : Allocator E) (e : E) : run A (noColls E) [.make, .add (.leaf 0) e, .addToEnd (.leaf 0) (.leaf 0)] =
    .error .ub := by
  have h1 : (0 : Nat) < A.room 32 := by have := A.enough 32; omega
  simp [run, exec, noColls, EventColl.make, Tree.addEvent, EventColl.addEvent, World.coll, pushBack, blockAt, bind, Except.bind, pure,
    Except.pure, h1, Tree.addToEnd, leafAddToEnd, newPointers, pointerTo]

/-- C140: a collection that is set from itself loses its events. -/
theorem setting_from_itself (A : Allocator E) (e : E) : ∃ w,
    run A (noColls E) [.make, .add (.leaf 0) e, .setFrom (.leaf 0) (.leaf 0)] = .ok w ∧ getEvents w 0 = .ok [] := by
  have h1 : (0 : Nat) < A.room 32 := by have := A.enough 32; omega
  refine ⟨⟨[⟨A.place [], A.room 32, [], true⟩], [some ⟨0, []⟩]⟩, ?_, ?_⟩
  · simp [run, exec, noColls, EventColl.make, Tree.addEvent, EventColl.addEvent, World.coll, pushBack, blockAt, bind, Except.bind, pure,
      Except.pure, h1, Tree.setFrom, Tree.clear, leafClear, Tree.addToEnd, leafAddToEnd, newPointers, pointerTo, addAll]
  · simp [getEvents, World.coll, bind, Except.bind, pure, Except.pure]

end Maliput.Props
