import Verif.Lemmas.Monad
import Verif.Lemmas.Rules
import Verif.Props.Phases
import Verif.Props.Rulebook
import Verif.Props.Rules
import Verif.Props.TrafficLights
import Verif.Spec.Validator

set_option autoImplicit false

/-! Lemmas about the network validator: each check succeeds exactly if its specification holds. -/
namespace Maliput.Validator

open Maliput.Rules Maliput.Topo Maliput.Validator.Spec

variable {Pos Rot : Type}

theorem notNull_ok {α : Type} {o : Option α} {a : α} : notNull o = .ok a ↔ o = some a := by
  cases o <;> simp [notNull]

theorem deref_ok {α : Type} {o : Option α} {a : α} : deref o = .ok a ↔ o = some a := by
  cases o <;> simp [deref]

theorem unit_ok {x : Except Err Unit} {u : Unit} : x = .ok u ↔ x = .ok () := Iff.rfl

/-- A loop over pointers. -/
theorem forM_pointers {l : List (Option Nat)} {f : Option Nat → Except Err Unit} {P : Nat → Prop}
    (hf : ∀ o, f o = .ok () ↔ ∃ a, o = some a ∧ P a) {u : Unit} :
    l.forM f = .ok u ↔ ∃ l', Pointers l l' ∧ ∀ a ∈ l', P a := by
  rw [forM_ok]
  simp only [hf]
  unfold Pointers
  induction l with
  | nil => simp
  | cons o l ih =>
    simp only [List.mem_cons, forall_eq_or_imp, ih]
    constructor
    · rintro ⟨⟨a, rfl, ha⟩, l', rfl, h⟩
      exact ⟨a :: l', rfl, by simpa using ⟨ha, h⟩⟩
    · rintro ⟨l', h1, h2⟩
      cases l' with
      | nil => simp at h1
      | cons a l' =>
        simp only [List.map_cons, List.cons.injEq] at h1
        simp only [List.mem_cons, forall_eq_or_imp] at h2
        exact ⟨⟨a, h1.1, h2.1⟩, l', h1.2, h2.2⟩

/-! ### The hierarchy -/

theorem hierarchyLane_ok (g : Geometry Pos Rot) (s : Nat) (o : Option Nat) :
    hierarchyLane g s o = .ok () ↔ ∃ l, o = some l ∧ LaneOk g s l := by
  simp only [hierarchyLane, bind_ok, notNull_ok, throwUnless_ok, decide_eq_true_eq, exists_const,
    Option.isSome_iff_exists]
  refine exists_congr fun l => and_congr_right fun _ => ?_
  exact ⟨fun ⟨a, b, c, d⟩ => ⟨a, b, c, d⟩, fun ⟨a, b, c, d⟩ => ⟨a, b, c, d⟩⟩

theorem pointers_length {l : List (Option Nat)} {l' : List Nat} (h : Pointers l l') : l.length = l'.length := by
  rw [h]; simp

theorem nonempty_pointers {l : List (Option Nat)} {P : Nat → Prop} :
    (l.length > 0 ∧ ∃ l', Pointers l l' ∧ ∀ a ∈ l', P a) ↔ ∃ l', Pointers l l' ∧ l' ≠ [] ∧ ∀ a ∈ l', P a := by
  constructor
  · rintro ⟨h, l', h1, h2⟩
    refine ⟨l', h1, ?_, h2⟩
    rintro rfl
    rw [pointers_length h1] at h; simp at h
  · rintro ⟨l', h1, h2, h3⟩
    exact ⟨by rw [pointers_length h1]; exact List.length_pos_of_ne_nil h2, l', h1, h3⟩

theorem hierarchySegment_ok (g : Geometry Pos Rot) (j : Nat) (o : Option Nat) :
    hierarchySegment g j o = .ok () ↔ ∃ s, o = some s ∧ SegmentOk g j s := by
  simp only [hierarchySegment, bind_ok, notNull_ok, throwUnless_ok, decide_eq_true_eq, exists_const,
    forM_pointers (hierarchyLane_ok g _), nonempty_pointers]
  refine exists_congr fun s => and_congr_right fun _ => ?_
  exact ⟨fun ⟨a, b, c⟩ => ⟨a, b, c⟩, fun ⟨a, b, c⟩ => ⟨a, b, c⟩⟩

theorem hierarchyJunction_ok (g : Geometry Pos Rot) (o : Option Nat) :
    hierarchyJunction g o = .ok () ↔ ∃ j, o = some j ∧ JunctionOk g j := by
  simp only [hierarchyJunction, bind_ok, notNull_ok, throwUnless_ok, decide_eq_true_eq, exists_const,
    forM_pointers (hierarchySegment_ok g _), nonempty_pointers]
  refine exists_congr fun s => and_congr_right fun _ => ?_
  exact ⟨fun ⟨a, b, c⟩ => ⟨a, b, c⟩, fun ⟨a, b, c⟩ => ⟨a, b, c⟩⟩

theorem hierarchyBranchPoint_ok (g : Geometry Pos Rot) (o : Option Nat) :
    hierarchyBranchPoint g o = .ok () ↔ ∃ b, o = some b ∧ BranchPointOk g b := by
  simp only [hierarchyBranchPoint, bind_ok, notNull_ok, throwUnless_ok, decide_eq_true_eq, exists_const,
    Bool.or_eq_true]
  refine exists_congr fun s => and_congr_right fun _ => ?_
  constructor
  · rintro ⟨a, b, x, hx, y, hy, h⟩
    refine ⟨a, b, x, y, hx, hy, ?_⟩
    rintro h'
    simp only [List.append_eq_nil_iff] at h'
    simp [h'.1, h'.2] at h
  · rintro ⟨a, b, x, y, hx, hy, h⟩
    refine ⟨a, b, x, hx, y, hy, ?_⟩
    by_contra h'
    simp only [not_or, not_not, List.length_eq_zero_iff] at h'
    simp [h'.1, h'.2] at h

theorem checkHierarchy_ok (n : Network Pos Rot) : checkHierarchy n = .ok () ↔ Hierarchy n.geometry := by
  simp only [checkHierarchy, bind_ok, throwUnless_ok, decide_eq_true_eq, exists_const,
    forM_pointers (hierarchyJunction_ok n.geometry), forM_pointers (hierarchyBranchPoint_ok n.geometry)]
  rw [← and_assoc, nonempty_pointers]
  constructor
  · rintro ⟨h1, h2, bs, h3, h4⟩
    exact ⟨h1, bs, h3, by rw [← pointers_length h3]; exact h2, h4⟩
  · rintro ⟨h1, bs, h3, h2, h4⟩
    exact ⟨h1, by rw [pointers_length h3]; exact h2, bs, h3, h4⟩

/-! ### Invariants -/

theorem endPosition_eq (g : Geometry Pos Rot) (e : LaneEnd) : endPosition g e = endPos g e := by
  rcases e with ⟨l, _ | _⟩ <;> rfl

theorem orientationOut_eq (g : Geometry Pos Rot) (e : LaneEnd) : orientationOut g e = outOf g e := by
  rcases e with ⟨l, _ | _⟩ <;> rfl

theorem collectM_nil {α : Type} {f : α → Except Err (List Failure)} {l : List α} :
    collectM f l = .ok [] ↔ ∀ x ∈ l, f x = .ok [] := by
  induction l with
  | nil => simp [collectM]
  | cons x l ih =>
    simp only [collectM, bind_ok, pure_ok, List.append_eq_nil_iff, List.mem_cons, forall_eq_or_imp]
    constructor
    · rintro ⟨a, ha, b, hb, rfl, rfl⟩
      exact ⟨ha, ih.1 hb⟩
    · rintro ⟨h1, h2⟩
      exact ⟨[], h1, [], ih.2 h2, rfl, rfl⟩

/-- Collecting over pointers. -/
theorem collectM_pointers {l : List (Option Nat)} {f : Option Nat → Except Err (List Failure)} {P : Nat → Prop}
    (hf : ∀ o, f o = .ok [] ↔ ∃ a, o = some a ∧ P a) :
    collectM f l = .ok [] ↔ ∃ l', Pointers l l' ∧ ∀ a ∈ l', P a := by
  rw [collectM_nil, ← forM_pointers (f := fun o => match f o with | .ok [] => .ok () | _ => .error .ub)
    (P := P) (u := ()), forM_ok]
  · refine forall_congr' fun o => imp_congr_right fun _ => ?_
    generalize f o = r
    rcases r with e | (_ | ⟨a, t⟩) <;> simp
  · intro o
    rw [← hf]
    generalize f o = r
    rcases r with e | (_ | ⟨a, t⟩) <;> simp

theorem checkOwner_nil {o : Owner} {f : Failure} : checkOwner o f = .ok [] ↔ o = .this := by
  cases o <;> simp [checkOwner]

theorem checkBack_nil {o : Option Nat} {x : Nat} {f : Failure} : checkBack o x f = .ok [] ↔ o = some x := by
  cases o with
  | none => simp [checkBack]
  | some y =>
    simp only [checkBack, Option.some.injEq]
    split <;> simp_all

theorem mem_indexed {α : Type} {l : List α} {i : Nat} {a : α} : (i, a) ∈ indexed l ↔ l[i]? = some a := by
  unfold indexed
  constructor
  · intro h
    obtain ⟨k, hk, he⟩ := List.getElem_of_mem h
    simp only [List.getElem_zip, List.getElem_range, Prod.mk.injEq] at he
    obtain ⟨rfl, rfl⟩ := he
    rw [List.getElem?_eq_getElem]
  · intro h
    obtain ⟨hk, rfl⟩ := List.getElem?_eq_some_iff.1 h
    have : ((List.range l.length).zip l)[i]'(by simpa using hk) = (i, l[i]) := by simp
    rw [← this]
    exact List.getElem_mem _

theorem invariantsLane_nil (g : Geometry Pos Rot) (s i : Nat) (o : Option Nat) :
    invariantsLane g s (i, o) = .ok [] ↔ ∃ l, o = some l ∧ (g.lane l).segment = some s ∧ (g.lane l).index = i := by
  simp only [invariantsLane, bind_ok, deref_ok, pure_ok, List.append_eq_nil_iff]
  refine exists_congr fun l => and_congr_right fun _ => ?_
  constructor
  · rintro ⟨a, h1, rfl, h2⟩
    refine ⟨checkBack_nil.1 h1, ?_⟩
    by_contra h; simp [h] at h2
  · rintro ⟨h1, h2⟩
    exact ⟨[], checkBack_nil.2 h1, rfl, by simp [h2]⟩

theorem pointers_of_forall {l : List (Option Nat)} (h : ∀ (i : Nat) o, l[i]? = some o → ∃ a, o = some a) :
    ∃ l', Pointers l l' := by
  unfold Pointers
  induction l with
  | nil => exact ⟨[], rfl⟩
  | cons o l ih =>
    obtain ⟨l', rfl⟩ := ih fun i o h' => h (i + 1) o (by simpa using h')
    obtain ⟨a, rfl⟩ := h 0 o rfl
    exact ⟨a :: l', rfl⟩

theorem invariantsSegment_nil (g : Geometry Pos Rot) (j : Nat) (o : Option Nat) :
    invariantsSegment g j o = .ok [] ↔ ∃ s, o = some s ∧ (g.segment s).junction = some j ∧
      ∃ ls, Pointers (g.segment s).lanes ls ∧ ∀ (i l : Nat), ls[i]? = some l →
        (g.lane l).segment = some s ∧ (g.lane l).index = i := by
  simp only [invariantsSegment, bind_ok, deref_ok, pure_ok, List.append_eq_nil_iff]
  refine exists_congr fun s => and_congr_right fun _ => ?_
  have key : collectM (invariantsLane g s) (indexed (g.segment s).lanes) = .ok [] ↔
      ∃ ls, Pointers (g.segment s).lanes ls ∧ ∀ (i l : Nat), ls[i]? = some l →
        (g.lane l).segment = some s ∧ (g.lane l).index = i := by
    rw [collectM_nil]
    constructor
    · intro h
      have h' : ∀ (i : Nat) o, (g.segment s).lanes[i]? = some o → invariantsLane g s (i, o) = .ok [] :=
        fun i o ho => h (i, o) (mem_indexed.2 ho)
      simp only [invariantsLane_nil] at h'
      obtain ⟨ls, hl⟩ := pointers_of_forall (l := (g.segment s).lanes) fun i o ho =>
        let ⟨a, ha, _⟩ := h' i o ho; ⟨a, ha⟩
      refine ⟨ls, hl, fun i l hi => ?_⟩
      obtain ⟨l', e, h1⟩ := h' i (some l) (by rw [hl, List.getElem?_map, hi]; rfl)
      cases e; exact h1
    · rintro ⟨ls, hl, h⟩ ⟨i, o⟩ hx
      rw [mem_indexed, hl, List.getElem?_map, Option.map_eq_some_iff] at hx
      obtain ⟨l, hi, rfl⟩ := hx
      exact (invariantsLane_nil _ _ _ _).2 ⟨l, rfl, h i l hi⟩
  constructor
  · rintro ⟨a, h1, b, h2, rfl, rfl⟩
    exact ⟨checkBack_nil.1 h1, key.1 h2⟩
  · rintro ⟨h1, h2⟩
    exact ⟨[], checkBack_nil.2 h1, [], key.2 h2, rfl, rfl⟩

theorem invariantsJunction_nil (g : Geometry Pos Rot) (o : Option Nat) :
    invariantsJunction g o = .ok [] ↔ ∃ j, o = some j ∧ (g.junction j).owner = .this ∧
      ∃ ss, Pointers (g.junction j).segments ss ∧ ∀ s ∈ ss, (g.segment s).junction = some j ∧
      ∃ ls, Pointers (g.segment s).lanes ls ∧ ∀ (i l : Nat), ls[i]? = some l →
        (g.lane l).segment = some s ∧ (g.lane l).index = i := by
  simp only [invariantsJunction, bind_ok, deref_ok, pure_ok, List.append_eq_nil_iff]
  refine exists_congr fun j => and_congr_right fun _ => ?_
  rw [← collectM_pointers (invariantsSegment_nil g j)]
  constructor
  · rintro ⟨a, h1, b, h2, rfl, rfl⟩
    exact ⟨checkOwner_nil.1 h1, h2⟩
  · rintro ⟨h1, h2⟩
    exact ⟨[], checkOwner_nil.2 h1, [], h2, rfl, rfl⟩

theorem invariantsOwner_nil (g : Geometry Pos Rot) (o : Option Nat) :
    invariantsOwner g o = .ok [] ↔ ∃ b, o = some b ∧ (g.branchPoint b).owner = .this := by
  simp only [invariantsOwner, bind_ok, deref_ok, checkOwner_nil]

theorem testPosition_nil (g : Geometry Pos Rot) (ref : Pos) (ends : List LaneEnd) :
    testPosition g ref ends = [] ↔ ∀ e ∈ ends, g.posDist ref (endPos g e) ≤ g.linearTolerance := by
  simp [testPosition, List.filter_eq_nil_iff, endPosition_eq]

theorem testOrientation_nil (g : Geometry Pos Rot) (ref : Rot) (ends : List LaneEnd) :
    testOrientation g ref ends = [] ↔ ∀ e ∈ ends, g.rotDist ref (outOf g e) ≤ g.angularTolerance := by
  simp [testOrientation, List.filter_eq_nil_iff, orientationOut_eq]

theorem invariantsEnds_nil (g : Geometry Pos Rot) (hrev : ∀ r s, g.rotDist (g.reverse (g.reverse r)) s = g.rotDist r s) (b : Nat)
    (as bs : List LaneEnd) : invariantsEnds g b as bs = [] ↔ ContinuousAt g as bs := by
  unfold ContinuousAt
  rcases as with _ | ⟨a, as⟩
  · rcases bs with _ | ⟨e, bs⟩
    · simp [invariantsEnds]
    · rw [invariantsEnds, List.append_eq_nil_iff, testPosition_nil, testOrientation_nil, endPosition_eq,
        orientationOut_eq]
      conv_lhs => simp only [hrev]
      constructor
      · rintro ⟨h1, h2⟩
        exact .inr ⟨e, bs, rfl, rfl, by simpa using h1, h2, by simp⟩
      · rintro (⟨_, _, h, _⟩ | ⟨ref, bs', -, h, hc⟩)
        · cases h
        · cases h
          exact ⟨by simpa using hc.position, hc.same⟩
  · have e : invariantsEnds g b (a :: as) bs = testPosition g (endPosition g a) (a :: as) ++
        testPosition g (endPosition g a) bs ++ testOrientation g (orientationOut g a) (a :: as) ++
        testOrientation g (g.reverse (orientationOut g a)) bs := by
      cases bs <;> rfl
    rw [e, List.append_eq_nil_iff, List.append_eq_nil_iff, List.append_eq_nil_iff, testPosition_nil,
      testPosition_nil, testOrientation_nil, testOrientation_nil, endPosition_eq, orientationOut_eq]
    constructor
    · rintro ⟨⟨⟨h1, h2⟩, h3⟩, h4⟩
      refine .inl ⟨a, as, rfl, fun x hx => ?_, h3, h4⟩
      rcases List.mem_append.1 hx with h | h
      · exact h1 x h
      · exact h2 x h
    · rintro (⟨ref, as', h, hc⟩ | ⟨_, _, h, _⟩)
      · cases h
        exact ⟨⟨⟨fun x hx => hc.position x (List.mem_append.2 (.inl hx)),
          fun x hx => hc.position x (List.mem_append.2 (.inr hx))⟩, hc.same⟩, hc.others⟩
      · cases h

theorem invariantsBranchPoint_nil (g : Geometry Pos Rot) (hrev : ∀ r s, g.rotDist (g.reverse (g.reverse r)) s = g.rotDist r s) (o : Option Nat) :
    invariantsBranchPoint g o = .ok [] ↔ ∃ b, o = some b ∧
      ∃ x y, (g.branchPoint b).aSide = some x ∧ (g.branchPoint b).bSide = some y ∧ ContinuousAt g x y := by
  simp only [invariantsBranchPoint, bind_ok, deref_ok, pure_ok, invariantsEnds_nil g hrev]
  refine exists_congr fun b => and_congr_right fun _ => ?_
  constructor
  · rintro ⟨x, hx, y, hy, h⟩; exact ⟨x, y, hx, hy, h⟩
  · rintro ⟨x, y, hx, hy, h⟩; exact ⟨x, hx, y, hy, h⟩

theorem pointers_inj {l : List (Option Nat)} {a b : List Nat} (ha : Pointers l a) (hb : Pointers l b) : a = b := by
  have : a.map some = b.map some := ha.symm.trans hb
  exact (List.map_injective_iff.2 (Option.some_injective _)) this

theorem checkInvariants_nil (g : Geometry Pos Rot) (hrev : ∀ r s, g.rotDist (g.reverse (g.reverse r)) s = g.rotDist r s) :
    checkInvariants g = .ok [] ↔ Invariants g := by
  simp only [checkInvariants, bind_ok, pure_ok, List.append_eq_nil_iff]
  constructor
  · rintro ⟨a, h1, b, h2, c, h3, ⟨rfl, rfl⟩, rfl⟩
    obtain ⟨bs, hb, hb1⟩ := (collectM_pointers (invariantsOwner_nil g)).1 h1
    obtain ⟨bs', hb', hb2⟩ := (collectM_pointers (invariantsBranchPoint_nil g hrev)).1 h3
    obtain rfl := pointers_inj hb hb'
    exact ⟨(collectM_pointers (invariantsJunction_nil g)).1 h2, bs, hb, fun b h => ⟨hb1 b h, hb2 b h⟩⟩
  · rintro ⟨h1, bs, hb, h2⟩
    exact ⟨[], (collectM_pointers (invariantsOwner_nil g)).2 ⟨bs, hb, fun b h => (h2 b h).1⟩,
      [], (collectM_pointers (invariantsJunction_nil g)).2 h1,
      [], (collectM_pointers (invariantsBranchPoint_nil g hrev)).2 ⟨bs, hb, fun b h => (h2 b h).2⟩, ⟨rfl, rfl⟩, rfl⟩

theorem mem_collectM {α : Type} {f : α → Except Err (List Failure)} {l : List α} {fs : List Failure}
    (h : collectM f l = .ok fs) (y : Failure) : y ∈ fs ↔ ∃ x ∈ l, ∃ r, f x = .ok r ∧ y ∈ r := by
  induction l generalizing fs with
  | nil => simp only [collectM, Except.ok.injEq] at h; subst h; simp
  | cons x l ih =>
    simp only [collectM, bind_ok, pure_ok] at h
    obtain ⟨a, ha, b, hb, rfl⟩ := h
    simp [ih hb, ha]

theorem collectM_each {α : Type} {f : α → Except Err (List Failure)} {l : List α} {fs : List Failure}
    (h : collectM f l = .ok fs) {x : α} (hx : x ∈ l) : ∃ r, f x = .ok r := by
  induction l generalizing fs with
  | nil => cases hx
  | cons z l ih =>
    simp only [collectM, bind_ok, pure_ok] at h
    obtain ⟨a, ha, b, hb, rfl⟩ := h
    rcases List.mem_cons.1 hx with rfl | hx
    · exact ⟨a, ha⟩
    · exact ih hb hx

theorem collectM_defined {α : Type} {f : α → Except Err (List Failure)} {l : List α}
    (h : ∀ x ∈ l, ∃ r, f x = .ok r) : ∃ fs, collectM f l = .ok fs := by
  induction l with
  | nil => exact ⟨[], rfl⟩
  | cons x l ih =>
    obtain ⟨a, ha⟩ := h x (by simp)
    obtain ⟨b, hb⟩ := ih fun y hy => h y (by simp [hy])
    exact ⟨a ++ b, by simp [collectM, ha, hb, bind, Except.bind, pure, Except.pure]⟩

theorem checkOwner_mem {o : Owner} {f y : Failure} {r : List Failure} (h : checkOwner o f = .ok r) :
    y ∈ r ↔ y = f ∧ o ≠ .this := by
  cases o <;> simp [checkOwner] at h <;> subst h <;> simp

theorem checkBack_mem {o : Option Nat} {x : Nat} {f y : Failure} {r : List Failure} (h : checkBack o x f = .ok r) :
    y ∈ r ↔ y = f ∧ o ≠ some x := by
  cases o with
  | none => simp [checkBack] at h
  | some z =>
    simp only [checkBack] at h
    split at h <;> cases h <;> simp_all

theorem invariantsLane_mem {g : Geometry Pos Rot} {s i : Nat} {o : Option Nat} {r : List Failure}
    (h : invariantsLane g s (i, o) = .ok r) (y : Failure) :
    y ∈ r ↔ ∃ l, o = some l ∧ ((y = .laneOwner l ∧ (g.lane l).segment ≠ some s) ∨
      (y = .laneIndex l ∧ (g.lane l).index ≠ i)) := by
  simp only [invariantsLane, bind_ok, deref_ok, pure_ok] at h
  obtain ⟨l, rfl, a, ha, rfl⟩ := h
  rw [List.mem_append, checkBack_mem ha]
  by_cases hi : (g.lane l).index = i <;> simp [hi]

theorem invariantsSegment_mem {g : Geometry Pos Rot} {j : Nat} {o : Option Nat} {r : List Failure}
    (h : invariantsSegment g j o = .ok r) (y : Failure) :
    y ∈ r ↔ ∃ s, o = some s ∧ ((y = .segmentOwner s ∧ (g.segment s).junction ≠ some j) ∨
      ∃ (i : Nat) (l : Nat), (g.segment s).lanes[i]? = some (some l) ∧
        ((y = .laneOwner l ∧ (g.lane l).segment ≠ some s) ∨ (y = .laneIndex l ∧ (g.lane l).index ≠ i))) := by
  simp only [invariantsSegment, bind_ok, deref_ok, pure_ok] at h
  obtain ⟨s, rfl, a, ha, b, hb, rfl⟩ := h
  rw [List.mem_append, checkBack_mem ha, mem_collectM hb]
  simp only [Option.some.injEq, exists_eq_left']
  refine or_congr Iff.rfl ?_
  constructor
  · rintro ⟨⟨i, o⟩, hx, r, hr, hy⟩
    obtain ⟨l, rfl, h⟩ := (invariantsLane_mem hr y).1 hy
    exact ⟨i, l, mem_indexed.1 hx, h⟩
  · rintro ⟨i, l, hi, h⟩
    have hx := mem_indexed.2 hi
    obtain ⟨r, hr⟩ := collectM_each hb hx
    exact ⟨_, hx, r, hr, (invariantsLane_mem hr y).2 ⟨l, rfl, h⟩⟩

theorem invariantsJunction_mem {g : Geometry Pos Rot} {o : Option Nat} {r : List Failure}
    (h : invariantsJunction g o = .ok r) (y : Failure) :
    y ∈ r ↔ ∃ j, o = some j ∧ ((y = .junctionOwner j ∧ (g.junction j).owner ≠ .this) ∨
      ∃ s, some s ∈ (g.junction j).segments ∧ ((y = .segmentOwner s ∧ (g.segment s).junction ≠ some j) ∨
      ∃ (i : Nat) (l : Nat), (g.segment s).lanes[i]? = some (some l) ∧
        ((y = .laneOwner l ∧ (g.lane l).segment ≠ some s) ∨ (y = .laneIndex l ∧ (g.lane l).index ≠ i)))) := by
  simp only [invariantsJunction, bind_ok, deref_ok, pure_ok] at h
  obtain ⟨j, rfl, a, ha, b, hb, rfl⟩ := h
  rw [List.mem_append, checkOwner_mem ha, mem_collectM hb]
  simp only [Option.some.injEq, exists_eq_left']
  refine or_congr Iff.rfl ?_
  constructor
  · rintro ⟨o, hx, r, hr, hy⟩
    obtain ⟨s, rfl, h⟩ := (invariantsSegment_mem hr y).1 hy
    exact ⟨s, hx, h⟩
  · rintro ⟨s, hx, h⟩
    obtain ⟨r, hr⟩ := collectM_each hb hx
    exact ⟨_, hx, r, hr, (invariantsSegment_mem hr y).2 ⟨s, rfl, h⟩⟩

theorem mem_testPosition {g : Geometry Pos Rot} {ref : Pos} {ends : List LaneEnd} {y : Failure} :
    y ∈ testPosition g ref ends ↔ ∃ e ∈ ends, y = .position e ∧ g.linearTolerance < g.posDist ref (endPos g e) := by
  simp only [testPosition, List.mem_map, List.mem_filter, decide_eq_true_eq, endPosition_eq, gt_iff_lt]
  constructor
  · rintro ⟨e, ⟨h1, h2⟩, rfl⟩; exact ⟨e, h1, rfl, h2⟩
  · rintro ⟨e, h1, rfl, h2⟩; exact ⟨e, ⟨h1, h2⟩, rfl⟩

theorem mem_testOrientation {g : Geometry Pos Rot} {ref : Rot} {ends : List LaneEnd} {y : Failure} :
    y ∈ testOrientation g ref ends ↔
      ∃ e ∈ ends, y = .orientation e ∧ g.angularTolerance < g.rotDist ref (outOf g e) := by
  simp only [testOrientation, List.mem_map, List.mem_filter, decide_eq_true_eq, orientationOut_eq, gt_iff_lt]
  constructor
  · rintro ⟨e, ⟨h1, h2⟩, rfl⟩; exact ⟨e, h1, rfl, h2⟩
  · rintro ⟨e, h1, rfl, h2⟩; exact ⟨e, ⟨h1, h2⟩, rfl⟩

/-- The messages about the ends at one branch point. -/
theorem mem_invariantsEnds {g : Geometry Pos Rot} (hrev : ∀ r s, g.rotDist (g.reverse (g.reverse r)) s = g.rotDist r s) {b : Nat}
    {as bs : List LaneEnd} {y : Failure} : y ∈ invariantsEnds g b as bs ↔
      (y = .emptyBranchPoint b ∧ as = [] ∧ bs = []) ∨
      ∃ ref, (as ++ bs).head? = some ref ∧ ∃ e,
        (y = .position e ∧ e ∈ as ++ bs ∧ g.linearTolerance < g.posDist (endPos g ref) (endPos g e)) ∨
        (y = .orientation e ∧
          ((((ref ∈ as ∧ e ∈ as) ∨ (as = [] ∧ e ∈ bs)) ∧
              g.angularTolerance < g.rotDist (outOf g ref) (outOf g e)) ∨
           (ref ∈ as ∧ e ∈ bs ∧ g.angularTolerance < g.rotDist (g.reverse (outOf g ref)) (outOf g e)))) := by
  rcases as with _ | ⟨a, as⟩
  · rcases bs with _ | ⟨x, bs⟩
    · simp [invariantsEnds]
    · rw [invariantsEnds, List.mem_append, mem_testPosition, mem_testOrientation, endPosition_eq,
        orientationOut_eq]
      simp only [hrev, List.nil_append, List.head?_cons, Option.some.injEq, exists_eq_left', reduceCtorEq, and_false,
        false_or, List.not_mem_nil, false_and, or_false, true_and]
      constructor
      · rintro (⟨e, h1, h2, h3⟩ | ⟨e, h1, h2, h3⟩)
        · exact ⟨e, .inl ⟨h2, h1, h3⟩⟩
        · exact ⟨e, .inr ⟨h2, h1, h3⟩⟩
      · rintro ⟨e, ⟨h1, h2, h3⟩ | ⟨h1, h2, h3⟩⟩
        · exact .inl ⟨e, h2, h1, h3⟩
        · exact .inr ⟨e, h2, h1, h3⟩
  · have e : invariantsEnds g b (a :: as) bs = testPosition g (endPosition g a) (a :: as) ++
        testPosition g (endPosition g a) bs ++ testOrientation g (orientationOut g a) (a :: as) ++
        testOrientation g (g.reverse (orientationOut g a)) bs := by
      cases bs <;> rfl
    have ha : a ∈ a :: as := by simp
    rw [e, List.mem_append, List.mem_append, List.mem_append, mem_testPosition, mem_testPosition,
      mem_testOrientation, mem_testOrientation, endPosition_eq, orientationOut_eq]
    simp only [List.cons_append, List.head?_cons, Option.some.injEq, exists_eq_left', reduceCtorEq, false_and,
      and_false, false_or, or_false, ha, true_and]
    rw [← List.cons_append]
    constructor
    · rintro (((⟨e, h1, h2, h3⟩ | ⟨e, h1, h2, h3⟩) | ⟨e, h1, h2, h3⟩) | ⟨e, h1, h2, h3⟩)
      · exact ⟨e, .inl ⟨h2, List.mem_append.2 (.inl h1), h3⟩⟩
      · exact ⟨e, .inl ⟨h2, List.mem_append.2 (.inr h1), h3⟩⟩
      · exact ⟨e, .inr ⟨h2, .inl ⟨h1, h3⟩⟩⟩
      · exact ⟨e, .inr ⟨h2, .inr ⟨h1, h3⟩⟩⟩
    · rintro ⟨e, ⟨h1, h2, h3⟩ | ⟨h1, ⟨h2, h3⟩ | ⟨h2, h3⟩⟩⟩
      · rcases List.mem_append.1 h2 with h2 | h2
        · exact .inl (.inl (.inl ⟨e, h2, h1, h3⟩))
        · exact .inl (.inl (.inr ⟨e, h2, h1, h3⟩))
      · exact .inl (.inr ⟨e, h2, h1, h3⟩)
      · exact .inr ⟨e, h2, h1, h3⟩

/-- `CheckInvariants` reports exactly the violations. -/
theorem mem_checkInvariants {g : Geometry Pos Rot} (hrev : ∀ r s, g.rotDist (g.reverse (g.reverse r)) s = g.rotDist r s) {fs : List Failure}
    (h : checkInvariants g = .ok fs) (y : Failure) : y ∈ fs ↔ Violation g y := by
  simp only [checkInvariants, bind_ok, pure_ok] at h
  obtain ⟨a, h1, b, h2, c, h3, rfl⟩ := h
  have ha : y ∈ a ↔ ∃ b, some b ∈ g.branchPoints ∧ y = .branchPointOwner b ∧ (g.branchPoint b).owner ≠ .this := by
    rw [mem_collectM h1]
    constructor
    · rintro ⟨o, ho, r, hr, hy⟩
      simp only [invariantsOwner, bind_ok, deref_ok] at hr
      obtain ⟨b, rfl, hr⟩ := hr
      exact ⟨b, ho, (checkOwner_mem hr).1 hy⟩
    · rintro ⟨b, hb, h⟩
      obtain ⟨r, hr⟩ := collectM_each h1 hb
      refine ⟨_, hb, r, hr, ?_⟩
      simp only [invariantsOwner, bind_ok, deref_ok] at hr
      obtain ⟨b', e, hr⟩ := hr
      cases e
      exact (checkOwner_mem hr).2 h
  have hb : y ∈ b ↔ ∃ j, some j ∈ g.junctions ∧ ((y = .junctionOwner j ∧ (g.junction j).owner ≠ .this) ∨
      ∃ s, some s ∈ (g.junction j).segments ∧ ((y = .segmentOwner s ∧ (g.segment s).junction ≠ some j) ∨
      ∃ (i : Nat) (l : Nat), (g.segment s).lanes[i]? = some (some l) ∧
        ((y = .laneOwner l ∧ (g.lane l).segment ≠ some s) ∨ (y = .laneIndex l ∧ (g.lane l).index ≠ i)))) := by
    rw [mem_collectM h2]
    constructor
    · rintro ⟨o, ho, r, hr, hy⟩
      obtain ⟨j, rfl, h⟩ := (invariantsJunction_mem hr y).1 hy
      exact ⟨j, ho, h⟩
    · rintro ⟨j, hj, h⟩
      obtain ⟨r, hr⟩ := collectM_each h2 hj
      exact ⟨_, hj, r, hr, (invariantsJunction_mem hr y).2 ⟨j, rfl, h⟩⟩
  have hc : y ∈ c ↔ ∃ b as bs, SidesOf g b as bs ∧ y ∈ invariantsEnds g b as bs := by
    rw [mem_collectM h3]
    unfold SidesOf
    constructor
    · rintro ⟨o, ho, r, hr, hy⟩
      simp only [invariantsBranchPoint, bind_ok, deref_ok, pure_ok] at hr
      obtain ⟨b, rfl, as, has, bs, hbs, rfl⟩ := hr
      exact ⟨b, as, bs, ⟨ho, has, hbs⟩, hy⟩
    · rintro ⟨b, as, bs, ⟨ho, has, hbs⟩, hy⟩
      refine ⟨_, ho, invariantsEnds g b as bs, ?_, hy⟩
      simp only [invariantsBranchPoint, bind_ok, deref_ok, pure_ok]
      exact ⟨b, rfl, as, has, bs, hbs, rfl⟩
  simp only [mem_invariantsEnds hrev] at hc
  rw [List.mem_append, List.mem_append, ha, hb, hc]
  cases y with
  | branchPointOwner b => simp [Violation]
  | junctionOwner j => simp [Violation]
  | segmentOwner s =>
    simp only [Violation, SegmentOf, reduceCtorEq, false_and, and_false, exists_false, false_or, or_false,
      Failure.segmentOwner.injEq]
    constructor
    · rintro ⟨j, hj, s', hs, rfl, h⟩; exact ⟨j, ⟨hj, hs⟩, h⟩
    · rintro ⟨j, ⟨hj, hs⟩, h⟩; exact ⟨j, hj, s, hs, rfl, h⟩
  | laneOwner l =>
    simp only [Violation, SegmentOf, reduceCtorEq, false_and, and_false, exists_false, false_or, or_false,
      Failure.laneOwner.injEq]
    constructor
    · rintro ⟨j, hj, s, hs, i, l', hi, rfl, h⟩; exact ⟨j, s, ⟨hj, hs⟩, List.mem_of_getElem? hi, h⟩
    · rintro ⟨j, s, ⟨hj, hs⟩, hl, h⟩
      obtain ⟨i, hi⟩ := List.getElem?_of_mem hl
      exact ⟨j, hj, s, hs, i, l, hi, rfl, h⟩
  | laneIndex l =>
    simp only [Violation, SegmentOf, reduceCtorEq, false_and, and_false, exists_false, false_or, or_false,
      Failure.laneIndex.injEq]
    constructor
    · rintro ⟨j, hj, s, hs, i, l', hi, rfl, h⟩; exact ⟨j, s, ⟨hj, hs⟩, i, hi, h⟩
    · rintro ⟨j, s, ⟨hj, hs⟩, i, hi, h⟩; exact ⟨j, hj, s, hs, i, l, hi, rfl, h⟩
  | emptyBranchPoint b =>
    simp only [Violation, reduceCtorEq, false_and, and_false, exists_false, false_or, or_false,
      Failure.emptyBranchPoint.injEq]
    constructor
    · rintro ⟨b', as, bs, h, rfl, rfl, rfl⟩; exact h
    · exact fun h => ⟨b, [], [], h, rfl, rfl, rfl⟩
  | position e =>
    simp only [Violation, reduceCtorEq, false_and, and_false, exists_false, false_or, or_false,
      Failure.position.injEq]
    constructor
    · rintro ⟨b, as, bs, h, ref, hr, e', rfl, h'⟩; exact ⟨b, as, bs, ref, h, hr, h'⟩
    · rintro ⟨b, as, bs, ref, h, hr, h'⟩; exact ⟨b, as, bs, h, ref, hr, e, rfl, h'⟩
  | orientation e =>
    simp only [Violation, reduceCtorEq, false_and, and_false, exists_false, false_or, or_false,
      Failure.orientation.injEq]
    constructor
    · rintro ⟨b, as, bs, h, ref, hr, e', rfl, h'⟩; exact ⟨b, as, bs, ref, h, hr, h'⟩
    · rintro ⟨b, as, bs, ref, h, hr, h'⟩; exact ⟨b, as, bs, h, ref, hr, e, rfl, h'⟩

theorem checkOwner_defined {o : Owner} (h : o ≠ .null) (f : Failure) : ∃ r, checkOwner o f = .ok r := by
  cases o
  · exact ⟨_, rfl⟩
  · exact ⟨_, rfl⟩
  · exact absurd rfl h

theorem checkBack_defined {o : Option Nat} (h : o ≠ none) (x : Nat) (f : Failure) : ∃ r, checkBack o x f = .ok r := by
  cases o with
  | none => exact absurd rfl h
  | some y => simp only [checkBack]; split <;> exact ⟨_, rfl⟩

theorem checkInvariants_defined {g : Geometry Pos Rot} (h : NoNull g) : ∃ fs, checkInvariants g = .ok fs := by
  obtain ⟨a, ha⟩ : ∃ a, collectM (invariantsOwner g) g.branchPoints = .ok a := by
    refine collectM_defined fun o ho => ?_
    obtain ⟨b, rfl, h1, -⟩ := h.branchPoints o ho
    exact checkOwner_defined h1 _
  obtain ⟨b, hb⟩ : ∃ a, collectM (invariantsJunction g) g.junctions = .ok a := by
    refine collectM_defined fun o ho => ?_
    obtain ⟨j, rfl, h1, h2⟩ := h.junctions o ho
    obtain ⟨x, hx⟩ := checkOwner_defined h1 (.junctionOwner j)
    obtain ⟨y, hy⟩ : ∃ a, collectM (invariantsSegment g j) (g.junction j).segments = .ok a := by
      refine collectM_defined fun o ho => ?_
      obtain ⟨s, rfl, h3, h4⟩ := h2 o ho
      obtain ⟨x, hx⟩ := checkBack_defined h3 j (.segmentOwner s)
      obtain ⟨y, hy⟩ : ∃ a, collectM (invariantsLane g s) (indexed (g.segment s).lanes) = .ok a := by
        refine collectM_defined ?_
        rintro ⟨i, o⟩ ho
        obtain ⟨l, rfl, h5⟩ := h4 o (List.mem_of_getElem? (mem_indexed.1 ho))
        obtain ⟨x, hx⟩ := checkBack_defined h5 s (.laneOwner l)
        refine ⟨x ++ (if (g.lane l).index ≠ (i : Int) then [.laneIndex l] else []), ?_⟩
        simp only [invariantsLane, bind_ok, deref_ok, pure_ok]
        exact ⟨l, rfl, x, hx, rfl⟩
      refine ⟨x ++ y, ?_⟩
      simp only [invariantsSegment, bind_ok, deref_ok, pure_ok]
      exact ⟨s, rfl, x, hx, y, hy, rfl⟩
    refine ⟨x ++ y, ?_⟩
    simp only [invariantsJunction, bind_ok, deref_ok, pure_ok]
    exact ⟨j, rfl, x, hx, y, hy, rfl⟩
  obtain ⟨c, hc⟩ : ∃ a, collectM (invariantsBranchPoint g) g.branchPoints = .ok a := by
    refine collectM_defined fun o ho => ?_
    obtain ⟨b, rfl, -, h2, h3⟩ := h.branchPoints o ho
    obtain ⟨x, hx⟩ := Option.ne_none_iff_exists'.1 h2
    obtain ⟨y, hy⟩ := Option.ne_none_iff_exists'.1 h3
    refine ⟨invariantsEnds g b x y, ?_⟩
    simp only [invariantsBranchPoint, bind_ok, deref_ok, pure_ok]
    exact ⟨b, rfl, x, hx, y, hy, rfl⟩
  refine ⟨a ++ b ++ c, ?_⟩
  simp only [checkInvariants, bind_ok, pure_ok]
  exact ⟨a, ha, b, hb, c, hc, rfl⟩

/-! ### Rules -/

theorem forM_map {κ α : Type} [DecidableEq κ] {m : Map κ α} {f : κ × α → Except Err Unit} {u : Unit} :
    m.entries.forM f = .ok u ↔ ∀ k v, m.get? k = some v → f (k, v) = .ok () := by
  rw [forM_ok]
  constructor
  · exact fun h k v hv => h (k, v) (Map.get?_eq_some.1 hv)
  · rintro h ⟨k, v⟩ hx; exact h k v (Map.get?_eq_some.2 hx)

theorem forall_entries {κ α : Type} [DecidableEq κ] {m : Map κ α} {P : κ × α → Prop} :
    (∀ x ∈ m.entries, P x) ↔ ∀ k v, m.get? k = some v → P (k, v) := by
  constructor
  · exact fun h k v hv => h (k, v) (Map.get?_eq_some.1 hv)
  · rintro h ⟨k, v⟩ hx; exact h k v (Map.get?_eq_some.2 hx)

theorem checkDirectionUsage_ok (g : Geometry Pos Rot) (rules : List Rulebook.Op)
    (lights : List (Option TrafficLights.TrafficLight)) (rings : List Phases.Op)
    (hn : Rulebook.Spec.NoRepeatedLaneRemoved rules) (hz : Rulebook.Spec.ValidZones rules) :
    checkDirectionUsage (network g rules lights rings) = .ok () ↔ Covered g rules := by
  unfold checkDirectionUsage Covered
  rw [forM_map]
  refine forall_congr' fun id => forall_congr' fun l => imp_congr_right fun hl => ?_
  change (SRange.make 0 (g.lane l).length >>= _) = _ ↔ _
  rw [bind_ok]
  by_cases hlen : 0 ≤ (g.lane l).length
  · have hm : SRange.make 0 (g.lane l).length = .ok ⟨0, (g.lane l).length⟩ := by
      simp [SRange.make, throwUnless, hlen]; rfl
    obtain ⟨q, hq, hc⟩ := Props.rulebook_findRules_partial rules hn hz [⟨id, 0, (g.lane l).length⟩]
      (by intro x hx; obtain rfl := List.mem_singleton.1 hx; exact ⟨le_refl _, hlen⟩) 0 (le_refl _)
    simp only [hm, Except.ok.injEq, exists_eq_left']
    change ((Rulebook.findRules (Rulebook.run rules) [⟨id, ⟨0, (g.lane l).length⟩⟩] 0) >>= _) = _ ↔ _
    rw [hq]
    change throwUnless _ = _ ↔ _
    rw [throwUnless_ok, decide_eq_true_eq]
    constructor
    · intro h
      refine ⟨hlen, ?_⟩
      obtain ⟨⟨k, r⟩, hm⟩ := List.exists_mem_of_length_pos h
      obtain ⟨-, hlive, z, hz, x, hx, hcl⟩ := (hc (.directionUsage k) (.directionUsage r)).1
        ((Rulebook.mem_contents _ _ _).2 ⟨k, rfl, Map.get?_eq_some.2 hm⟩)
      obtain rfl := List.mem_singleton.1 hx
      obtain rfl := List.mem_singleton.1 hz
      exact ⟨r, hlive, hcl⟩
    · rintro ⟨-, r, hlive, hcl⟩
      have := (hc (.directionUsage r.id) (.directionUsage r)).2
        ⟨rfl, hlive, r.zone, List.mem_singleton.2 rfl, _, List.mem_singleton.2 rfl, hcl⟩
      obtain ⟨k, -, h⟩ := (Rulebook.mem_contents _ _ _).1 this
      exact List.length_pos_of_mem (Map.get?_eq_some.1 h)
  · have hm : ∀ r, SRange.make 0 (g.lane l).length ≠ .ok r := by
      intro r h
      simp [SRange.make, throwUnless, hlen, bind_ok] at h
    simp [hm, hlen]

section Rules
variable {rules : List Rulebook.Op} (hn : Rulebook.Spec.NoRepeatedLaneRemoved rules)
include hn

theorem rules_rightOfWay (id : String) (r : RightOfWayRule) :
    (Rulebook.rules (Rulebook.run rules)).rightOfWay.get? id = some r ↔
      .rightOfWay r ∈ Rulebook.Spec.live rules ∧ r.id = id := (Rulebook.inv_run rules hn).rightOfWays id r

theorem rules_discreteValue (id : String) (r : DiscreteValueRule) :
    (Rulebook.rules (Rulebook.run rules)).discreteValueRules.get? id = some r ↔
      .discreteValue r ∈ Rulebook.Spec.live rules ∧ r.id = id := (Rulebook.inv_run rules hn).discreteValueRules id r

theorem rules_rangeValue (id : String) (r : RangeValueRule) :
    (Rulebook.rules (Rulebook.run rules)).rangeValueRules.get? id = some r ↔
      .rangeValue r ∈ Rulebook.Spec.live rules ∧ r.id = id := (Rulebook.inv_run rules hn).rangeValueRules id r

theorem isRuleIdIn_iff (id : String) :
    isRuleIdIn (Rulebook.rules (Rulebook.run rules)) id = true ↔ HasRule rules id := by
  simp only [isRuleIdIn, Bool.or_eq_true, Map.has_iff, rules_discreteValue hn, rules_rangeValue hn, HasRule]

theorem checkState_ok (s : State) :
    checkState (Rulebook.rules (Rulebook.run rules)) s = .ok () ↔ RelatedExist rules s := by
  unfold checkState RelatedExist Rules.Spec.ids
  simp only [forM_ok, forall_entries, throwUnless_ok, isRuleIdIn_iff hn]
  constructor
  · intro h group id hid
    generalize hg : s.relatedRules.get? group = o at hid
    rcases o with _ | l
    · simp at hid
    · exact h group l hg id hid
  · intro h group l hg id hid
    exact h group id (by rw [hg]; exact hid)

theorem checkRelatedRules_ok (g : Geometry Pos Rot) (lights : List (Option TrafficLights.TrafficLight))
    (rings : List Phases.Op) : checkRelatedRules (network g rules lights rings) = .ok () ↔ RelatedRules rules := by
  simp only [checkRelatedRules, network, bind_ok, forM_ok, forall_entries, exists_const, rules_discreteValue hn,
    rules_rangeValue hn, checkState_ok hn, RelatedRules]
  constructor
  · rintro ⟨h1, h2⟩; exact ⟨fun r hr => h1 _ r ⟨hr, rfl⟩, fun r hr => h2 _ r ⟨hr, rfl⟩⟩
  · rintro ⟨h1, h2⟩; exact ⟨fun _ r hr => h1 r hr.1, fun _ r hr => h2 r hr.1⟩

end Rules

theorem isContiguous_ok (g : Geometry Pos Rot) (a b : LaneSRange) :
    isContiguous g a b = .ok true ↔ Meet g a b := by
  unfold isContiguous Meet
  generalize g.laneById a.laneId = x
  generalize g.laneById b.laneId = y
  rcases x with _ | x
  · simp
  · rcases y with _ | y
    · simp
    · simp

theorem checkRoute_ok (g : Geometry Pos Rot) (route : List LaneSRange) :
    checkRoute g route = .ok () ↔ Contiguous g route := by
  unfold Contiguous
  induction route with
  | nil => simp [checkRoute]
  | cons a rest ih =>
    cases rest with
    | nil =>
      simp only [checkRoute, true_iff]
      intro pre x y post h
      have := congrArg List.length h
      simp at this; omega
    | cons b rest =>
      simp only [checkRoute, bind_ok, throwUnless_ok, exists_const]
      rw [ih]
      constructor
      · rintro ⟨c, h1, rfl, h2⟩ pre x y post h
        cases pre with
        | nil => cases h; exact (isContiguous_ok _ _ _).1 h1
        | cons p pre => rw [List.cons_append, List.cons.injEq] at h; exact h2 pre x y post h.2
      · intro h
        exact ⟨true, (isContiguous_ok _ _ _).2 (h [] a b rest rfl), rfl,
          fun pre x y post h' => h (a :: pre) x y post (by rw [h']; rfl)⟩

theorem checkContiguity_ok (g : Geometry Pos Rot) {rules : List Rulebook.Op}
    (hn : Rulebook.Spec.NoRepeatedLaneRemoved rules) (lights : List (Option TrafficLights.TrafficLight))
    (rings : List Phases.Op) : checkContiguity (network g rules lights rings) = .ok () ↔ Zones g rules := by
  simp only [checkContiguity, network, bind_ok, forM_map, exists_const, rules_discreteValue hn,
    rules_rangeValue hn, checkRoute_ok, Zones]
  constructor
  · rintro ⟨h1, h2⟩; exact ⟨fun r hr => h1 _ r ⟨hr, rfl⟩, fun r hr => h2 _ r ⟨hr, rfl⟩⟩
  · rintro ⟨h1, h2⟩; exact ⟨fun _ r hr => h1 r hr.1, fun _ r hr => h2 r hr.1⟩

/-! ### Lights -/

theorem bulbGroupExists_ok (g : Geometry Pos Rot) (rules : List Rulebook.Op)
    (lights : List (Option TrafficLights.TrafficLight)) (rings : List Phases.Op) (light group : String) :
    bulbGroupExists (network g rules lights rings) light group = .ok () ↔ HasGroup lights light group := by
  simp only [bulbGroupExists, network, bind_ok, notNull_ok, throwUnless_ok, (Props.lightBook_get lights light).1,
    HasGroup, and_assoc]
  refine exists_congr fun t => and_congr_right fun _ => and_congr_right fun _ => ?_
  simp [TrafficLights.TrafficLight.getBulbGroup, List.find?_isSome]

theorem checkRelatedBulbGroups_ok (g : Geometry Pos Rot) {rules : List Rulebook.Op}
    (hn : Rulebook.Spec.NoRepeatedLaneRemoved rules) (lights : List (Option TrafficLights.TrafficLight))
    (rings : List Phases.Op) :
    checkRelatedBulbGroups (network g rules lights rings) = .ok () ↔ BulbGroups rules lights := by
  unfold checkRelatedBulbGroups BulbGroups
  simp only [forM_ok, forall_entries, bulbGroupExists_ok]
  change (∀ k v, (Rulebook.rules (Rulebook.run rules)).rightOfWay.get? k = some v → _) ↔ _
  simp only [rules_rightOfWay hn]
  constructor
  · exact fun h r hr => h _ r ⟨hr, rfl⟩
  · exact fun h _ r hr => h r hr.1

theorem checkBulb_ok (g : Geometry Pos Rot) (rules : List Rulebook.Op)
    (lights : List (Option TrafficLights.TrafficLight))
    (hl : ∀ t, some t ∈ lights → TrafficLights.Spec.BuiltLight t) (rings : List Phases.Op)
    (u : TrafficLights.UniqueBulbId) (s : TrafficLights.BulbState) :
    checkBulb (network g rules lights rings) (u, s) = .ok () ↔ HasBulb lights u s := by
  simp only [checkBulb, network, bind_ok, notNull_ok, throwUnless_ok, (Props.lightBook_get lights u.light).1,
    HasBulb, and_assoc]
  refine exists_congr fun t => and_congr_right fun ht => and_congr_right fun _ => ?_
  have hb : TrafficLights.Spec.BuiltLight t := by
    obtain ⟨pre, post, rfl, -⟩ := ht
    exact hl t (by simp)
  simp only [(Props.getBulbGroup_iff t hb u.group).1, and_assoc]
  refine exists_congr fun x => and_congr_right fun hx => and_congr_right fun _ => ?_
  simp only [(Props.getBulb_iff x (hb.2 x hx) u.bulb).1, and_assoc, List.contains_iff_mem]

/-! ### Phases -/

theorem walkPhases_ok (g : Geometry Pos Rot) (rules : List Rulebook.Op)
    (lights : List (Option TrafficLights.TrafficLight)) (rings : List Phases.Op)
    (f : Phases.Phase → Except Err Unit) :
    walkPhases (network g rules lights rings) f = .ok () ↔ ∀ p, PhaseIn rings p → f p = .ok () := by
  unfold walkPhases PhaseIn
  change (Phases.getPhaseRings (Phases.run rings)).forM _ = _ ↔ _
  rw [forM_ok]
  simp only [Phases.getPhaseRings, Map.mem_keys, bind_ok, notNull_ok, forM_map]
  change (∀ x, _ → ∃ a, (Phases.run rings).rings.get? x = some a ∧ _) ↔ _
  simp only [Phases.rings_run]
  constructor
  · rintro h p ⟨r, hr, k, hk⟩
    obtain ⟨r', h1, h2⟩ := h r.id ⟨r, hr, rfl⟩
    have := ((Phases.rings_run rings r.id r').2 h1).symm.trans ((Phases.rings_run rings r.id r).2 ⟨hr, rfl⟩)
    cases this
    exact h2 k p hk
  · rintro h id ⟨r, hr⟩
    exact ⟨r, hr, fun k p hk => h p ⟨r, hr.1, k, hk⟩⟩

theorem resembles_iff (v w : DiscreteValue) : v.eq w = true ↔ Resembles v w := by
  rw [Props.discreteValueEq_iff, Props.stateEq_iff]; rfl

theorem checkPhaseValues_ok (g : Geometry Pos Rot) {rules : List Rulebook.Op}
    (hn : Rulebook.Spec.NoRepeatedLaneRemoved rules) (lights : List (Option TrafficLights.TrafficLight))
    (rings : List Phases.Op) :
    checkPhaseValues (network g rules lights rings) = .ok () ↔ PhaseValues rules rings := by
  unfold checkPhaseValues PhaseValues
  rw [walkPhases_ok]
  refine forall_congr' fun p => imp_congr_right fun _ => ?_
  rw [forM_map]
  refine forall_congr' fun id => forall_congr' fun w => imp_congr_right fun _ => ?_
  change (Rulebook.getDiscreteValueRule (Rulebook.run rules) id >>= _) = _ ↔ _
  simp only [bind_ok, ((Props.rulebook_get_partial rules hn id).2.2.2.1 _), throwUnless_ok, List.any_eq_true,
    resembles_iff, and_assoc]

theorem checkPhaseBulbs_ok (g : Geometry Pos Rot) (rules : List Rulebook.Op)
    (lights : List (Option TrafficLights.TrafficLight))
    (hl : ∀ t, some t ∈ lights → TrafficLights.Spec.BuiltLight t) (rings : List Phases.Op) :
    checkPhaseBulbs (network g rules lights rings) = .ok () ↔ PhaseBulbs lights rings := by
  unfold checkPhaseBulbs PhaseBulbs
  rw [walkPhases_ok]
  refine forall_congr' fun p => imp_congr_right fun _ => ?_
  rcases p.bulbStates with _ | m
  · simp
  · simp only [forM_map, checkBulb_ok g rules lights hl rings, Option.some.injEq, forall_eq']

/-! ### Only exceptions -/

/-- If it fails, it fails with one of the two exceptions. -/
def Tame {α : Type} (x : Except Err α) : Prop := ∀ e, x = .error e → e = .throws ∨ e = .outOfRange

theorem Tame.bind {α β : Type} {x : Except Err α} {f : α → Except Err β} (hx : Tame x)
    (hf : ∀ a, x = .ok a → Tame (f a)) : Tame (x >>= f) := by
  intro e h
  rcases x with e' | a
  · exact hx e (by simpa [Bind.bind, Except.bind] using h)
  · exact hf a rfl e h

theorem tame_ok {α : Type} (a : α) : Tame (Except.ok a : Except Err α) := by intro e h; cases h

theorem tame_throwUnless (b : Bool) : Tame (throwUnless b) := by
  intro e h
  cases b
  · simp [throwUnless] at h; exact .inl h.symm
  · simp [throwUnless] at h

theorem tame_notNull {α : Type} (o : Option α) : Tame (notNull o) := by
  intro e h
  cases o
  · simp [notNull] at h; exact .inl h.symm
  · simp [notNull] at h

theorem tame_forM {α : Type} {f : α → Except Err Unit} {l : List α} (h : ∀ x ∈ l, Tame (f x)) : Tame (l.forM f) := by
  induction l with
  | nil => exact tame_ok ()
  | cons x l ih =>
    change Tame (f x >>= fun _ => l.forM f)
    exact Tame.bind (h x (by simp)) fun _ _ => ih fun y hy => h y (by simp [hy])

theorem tame_if {c : Bool} {x : Except Err Unit} (h : Tame x) : Tame (check c x) := by
  cases c
  · exact tame_ok ()
  · exact h

theorem tame_hierarchy (n : Network Pos Rot) : Tame (checkHierarchy n) := by
  unfold checkHierarchy
  refine (tame_throwUnless _).bind fun _ _ => (tame_forM fun j _ => ?_).bind fun _ _ =>
    (tame_throwUnless _).bind fun _ _ => tame_forM fun b _ => ?_
  · unfold hierarchyJunction
    refine (tame_notNull _).bind fun _ _ => (tame_throwUnless _).bind fun _ _ => (tame_throwUnless _).bind fun _ _ =>
      (tame_throwUnless _).bind fun _ _ => tame_forM fun s _ => ?_
    unfold hierarchySegment
    refine (tame_notNull _).bind fun _ _ => (tame_throwUnless _).bind fun _ _ => (tame_throwUnless _).bind fun _ _ =>
      (tame_throwUnless _).bind fun _ _ => tame_forM fun s _ => ?_
    unfold hierarchyLane
    exact (tame_notNull _).bind fun _ _ => (tame_throwUnless _).bind fun _ _ => (tame_throwUnless _).bind fun _ _ =>
      (tame_throwUnless _).bind fun _ _ => tame_throwUnless _
  · unfold hierarchyBranchPoint
    exact (tame_notNull _).bind fun _ _ => (tame_throwUnless _).bind fun _ _ => (tame_throwUnless _).bind fun _ _ =>
      (tame_notNull _).bind fun _ _ => (tame_notNull _).bind fun _ _ => tame_throwUnless _

theorem tame_invariants {n : Network Pos Rot} (h : NoNull n.geometry) : Tame (throwIfInvariants n) := by
  obtain ⟨fs, hf⟩ := checkInvariants_defined h
  unfold throwIfInvariants
  rw [hf]
  exact tame_throwUnless _

theorem tame_bulbGroups (n : Network Pos Rot) : Tame (checkRelatedBulbGroups n) := by
  unfold checkRelatedBulbGroups bulbGroupExists
  exact tame_forM fun _ _ => tame_forM fun _ _ => tame_forM fun _ _ =>
    (tame_notNull _).bind fun _ _ => tame_throwUnless _

theorem tame_route (g : Geometry Pos Rot) (r : List LaneSRange) : Tame (checkRoute g r) := by
  induction r with
  | nil => exact tame_ok ()
  | cons a r ih =>
    cases r with
    | nil => exact tame_ok ()
    | cons b r =>
      rw [checkRoute]
      refine Tame.bind ?_ fun _ _ => (tame_throwUnless _).bind fun _ _ => ih
      intro e h
      unfold isContiguous at h
      generalize g.laneById a.laneId = x at h
      generalize g.laneById b.laneId = y at h
      rcases x with _ | x
      · simp at h; exact .inl h.symm
      · rcases y with _ | y
        · simp at h; exact .inl h.symm
        · simp at h

theorem tame_contiguity (n : Network Pos Rot) : Tame (checkContiguity n) := by
  unfold checkContiguity
  exact (tame_forM fun _ _ => tame_route _ _).bind fun _ _ => tame_forM fun _ _ => tame_route _ _

theorem tame_walk (n : Network Pos Rot) {f : Phases.Phase → Except Err Unit} (h : ∀ p, Tame (f p)) :
    Tame (walkPhases n f) := by
  unfold walkPhases
  exact tame_forM fun _ _ => (tame_notNull _).bind fun _ _ => tame_forM fun _ _ => h _

theorem tame_phaseValues (n : Network Pos Rot) : Tame (checkPhaseValues n) := by
  unfold checkPhaseValues
  refine tame_walk n fun p => tame_forM fun _ _ => Tame.bind ?_ fun _ _ => tame_throwUnless _
  intro e h
  simp only [Rulebook.getDiscreteValueRule, Map.at!_error] at h
  exact .inr h.1

theorem tame_phaseBulbs (n : Network Pos Rot) : Tame (checkPhaseBulbs n) := by
  unfold checkPhaseBulbs
  refine tame_walk n fun p => ?_
  rcases p.bulbStates with _ | m
  · exact tame_ok ()
  · refine tame_forM fun _ _ => ?_
    unfold checkBulb
    exact (tame_notNull _).bind fun _ _ => (tame_notNull _).bind fun _ _ => (tame_notNull _).bind fun _ _ =>
      tame_throwUnless _

theorem tame_relatedRules (n : Network Pos Rot) : Tame (checkRelatedRules n) := by
  unfold checkRelatedRules checkState
  exact (tame_forM fun _ _ => tame_forM fun _ _ => tame_forM fun _ _ => tame_forM fun _ _ =>
    tame_throwUnless _).bind fun _ _ => tame_forM fun _ _ => tame_forM fun _ _ => tame_forM fun _ _ =>
    tame_forM fun _ _ => tame_throwUnless _

theorem tame_directionUsage (g : Geometry Pos Rot) (rules : List Rulebook.Op)
    (lights : List (Option TrafficLights.TrafficLight)) (rings : List Phases.Op)
    (hn : Rulebook.Spec.NoRepeatedLaneRemoved rules) (hz : Rulebook.Spec.ValidZones rules) :
    Tame (checkDirectionUsage (network g rules lights rings)) := by
  unfold checkDirectionUsage
  refine tame_forM fun kv _ => Tame.bind ?_ fun r hr => Tame.bind ?_ fun _ _ => tame_throwUnless _
  · unfold SRange.make
    exact (tame_throwUnless _).bind fun _ _ => (tame_throwUnless _).bind fun _ _ => tame_ok _
  · have hv : Maliput.Spec.ValidRange r := by
      simp only [SRange.make, bind_ok, throwUnless_ok, pure_ok, decide_eq_true_eq, exists_const] at hr
      obtain ⟨h1, h2, rfl⟩ := hr
      exact ⟨h1, h2⟩
    obtain ⟨q, hq, -⟩ := Props.rulebook_findRules_partial rules hn hz [⟨kv.1, r⟩]
      (by intro x hx; obtain rfl := List.mem_singleton.1 hx; exact hv) 0 (le_refl _)
    change Tame (Rulebook.findRules (Rulebook.run rules) _ _)
    rw [hq]
    exact tame_ok _

end Maliput.Validator
