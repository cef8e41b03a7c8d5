import Mathlib.Data.List.Basic
import Verif.Spec.GeometryBase

set_option autoImplicit false
namespace Maliput.Build

/-- `w'` differs from `w` in the id index at most. -/
structure SameObjects (w w' : World) : Prop where
  nLanes : w'.nLanes = w.nLanes
  nSegments : w'.nSegments = w.nSegments
  nJunctions : w'.nJunctions = w.nJunctions
  nBranchPoints : w'.nBranchPoints = w.nBranchPoints
  lane : w'.lane = w.lane
  segment : w'.segment = w.segment
  junction : w'.junction = w.junction
  branchPointId : w'.branchPointId = w.branchPointId
  junctions : w'.junctions = w.junctions
  branchPoints : w'.branchPoints = w.branchPoints

theorem andThen_ok {r : Result} {f : World → Result} {w : World} (h : r.andThen f = (w, .ok ())) :
    ∃ w1, r = (w1, .ok ()) ∧ f w1 = (w, .ok ()) := by
  obtain ⟨w1, e⟩ := r
  cases e with
  | ok u => exact ⟨w1, rfl, h⟩
  | error e => cases h

theorem update_iff {α : Type} {m : String → Option α} {k : String} {v : α} (h : m k = none) (id : String) (x : α) :
    Function.update m k (some v) id = some x ↔ m id = some x ∨ (x = v ∧ k = id) := by
  rw [Function.update_apply]
  split
  · rename_i e; subst e
    simp only [h, Option.some.injEq, and_true, reduceCtorEq, false_or]
    exact eq_comm
  · rename_i e
    simp [Ne.symm e]

theorem indexLane_ok {w w' : World} {l : Nat} (h : indexLane w l = (w', .ok ())) :
    w.laneMap (w.lane l).id = none ∧
    w' = { w with laneMap := Function.update w.laneMap (w.lane l).id (some l) } := by
  unfold indexLane at h
  split at h
  · rename_i e; cases h; exact ⟨e, rfl⟩
  · cases h

theorem indexSegment_ok {w w' : World} {l : Nat} (h : indexSegment w l = (w', .ok ())) :
    w.segmentMap (w.segment l).id = none ∧
    w' = { w with segmentMap := Function.update w.segmentMap (w.segment l).id (some l) } := by
  unfold indexSegment at h
  split at h
  · rename_i e; cases h; exact ⟨e, rfl⟩
  · cases h

theorem indexJunction_ok {w w' : World} {l : Nat} (h : indexJunction w l = (w', .ok ())) :
    w.junctionMap (w.junction l).id = none ∧
    w' = { w with junctionMap := Function.update w.junctionMap (w.junction l).id (some l) } := by
  unfold indexJunction at h
  split at h
  · rename_i e; cases h; exact ⟨e, rfl⟩
  · cases h

theorem indexBranchPoint_ok {w w' : World} {l : Nat} (h : indexBranchPoint w l = (w', .ok ())) :
    w.branchPointMap (w.branchPointId l) = none ∧
    w' = { w with branchPointMap := Function.update w.branchPointMap (w.branchPointId l) (some l) } := by
  unfold indexBranchPoint at h
  split at h
  · rename_i e; cases h; exact ⟨e, rfl⟩
  · cases h

/-- Indexing a list of lanes. -/
theorem forEach_indexLane_ok (ls : List Nat) : ∀ (w w' : World), forEach indexLane ls w = (w', .ok ()) →
    ∃ m, w' = { w with laneMap := m } ∧
      ∀ id x, m id = some x ↔ w.laneMap id = some x ∨ (x ∈ ls ∧ (w.lane x).id = id) := by
  induction ls with
  | nil => intro w w' h; cases h; exact ⟨w.laneMap, rfl, fun id x => by simp⟩
  | cons l ls ih =>
    intro w w' h
    obtain ⟨w1, h1, h2⟩ := andThen_ok h
    obtain ⟨hn, rfl⟩ := indexLane_ok h1
    obtain ⟨m, rfl, hm⟩ := ih _ _ h2
    refine ⟨m, rfl, fun id x => ?_⟩
    rw [hm]
    simp only [update_iff hn, List.mem_cons]
    constructor
    · rintro ((h | ⟨rfl, h⟩) | ⟨h, h'⟩)
      · exact Or.inl h
      · exact Or.inr ⟨Or.inl rfl, h⟩
      · exact Or.inr ⟨Or.inr h, h'⟩
    · rintro (h | ⟨rfl | h, h'⟩)
      · exact Or.inl (Or.inl h)
      · exact Or.inl (Or.inr ⟨rfl, h'⟩)
      · exact Or.inr ⟨h, h'⟩

/-- `SetLaneIndexingCallback`. -/
theorem setLaneIndexingCallback_ok {w w' : World} {s : Nat} (h : setLaneIndexingCallback w s = (w', .ok ())) :
    (w.segment s).callback = false ∧
    ∃ m, w' = { w with segment := Function.update w.segment s { w.segment s with callback := true }, laneMap := m } ∧
      ∀ id x, m id = some x ↔ w.laneMap id = some x ∨ (x ∈ (w.segment s).lanes ∧ (w.lane x).id = id) := by
  unfold setLaneIndexingCallback at h
  split at h
  · cases h
  · rename_i e
    obtain ⟨m, h1, h2⟩ := forEach_indexLane_ok _ _ _ h
    exact ⟨by simpa using e, m, h1, h2⟩

/-- The loop of `AttachToRoadGeometry`. -/
theorem attachLoop_ok (ss : List Nat) : ∀ (w w' : World),
    forEach (fun w s => (indexSegment w s).andThen fun w => setLaneIndexingCallback w s) ss w = (w', .ok ()) →
    ∃ ml ms, w' = { w with
        segment := fun s => if s ∈ ss then { w.segment s with callback := true } else w.segment s,
        laneMap := ml, segmentMap := ms } ∧
      (∀ s ∈ ss, (w.segment s).callback = false) ∧
      (∀ id x, ml id = some x ↔ w.laneMap id = some x ∨
        ((∃ s ∈ ss, x ∈ (w.segment s).lanes) ∧ (w.lane x).id = id)) ∧
      (∀ id x, ms id = some x ↔ w.segmentMap id = some x ∨ (x ∈ ss ∧ (w.segment x).id = id)) := by
  induction ss with
  | nil => intro w w' h; cases h; exact ⟨w.laneMap, w.segmentMap, by simp, by simp, by simp, by simp⟩
  | cons s ss ih =>
    intro w w' h
    obtain ⟨w1, h1, h2⟩ := andThen_ok h
    obtain ⟨w2, h3, h4⟩ := andThen_ok h1
    obtain ⟨hn, rfl⟩ := indexSegment_ok h3
    obtain ⟨hcb, m, rfl, hm⟩ := setLaneIndexingCallback_ok h4
    obtain ⟨ml, ms, rfl, hcbs, hml, hms⟩ := ih _ _ h2
    dsimp only at hcb hm hcbs hml hms
    have hlanes : ∀ x, (Function.update w.segment s { w.segment s with callback := true } x).lanes = (w.segment x).lanes := by
      intro x; rw [Function.update_apply]; split
      · rename_i e; rw [e]
      · rfl
    have hids : ∀ x, (Function.update w.segment s { w.segment s with callback := true } x).id = (w.segment x).id := by
      intro x; rw [Function.update_apply]; split
      · rename_i e; rw [e]
      · rfl
    have hns : s ∉ ss := fun hs => by
      have := hcbs s hs
      simp at this
    refine ⟨ml, ms, ?_, ?_, ?_, ?_⟩
    · simp only [World.mk.injEq, true_and, and_true]
      funext x
      by_cases e : x = s
      · subst e; simp [hns]
      · simp [e]
    · intro x hx
      rcases List.mem_cons.mp hx with rfl | hx
      · exact hcb
      · have := hcbs x hx
        rw [Function.update_apply] at this
        split at this
        · cases this
        · exact this
    · intro id x
      rw [hml]
      simp only [hlanes, hm]
      constructor
      · rintro ((h | ⟨h, h'⟩) | ⟨⟨t, ht, hx⟩, h'⟩)
        · exact Or.inl h
        · exact Or.inr ⟨⟨s, List.mem_cons_self, h⟩, h'⟩
        · exact Or.inr ⟨⟨t, List.mem_cons_of_mem _ ht, hx⟩, h'⟩
      · rintro (h | ⟨⟨t, ht, hx⟩, h'⟩)
        · exact Or.inl (Or.inl h)
        · rcases List.mem_cons.mp ht with rfl | ht
          · exact Or.inl (Or.inr ⟨hx, h'⟩)
          · exact Or.inr ⟨⟨t, ht, hx⟩, h'⟩
    · intro id x
      rw [hms]
      simp only [update_iff hn, hids, List.mem_cons]
      constructor
      · rintro ((h | ⟨rfl, h⟩) | ⟨h, h'⟩)
        · exact Or.inl h
        · exact Or.inr ⟨Or.inl rfl, h⟩
        · exact Or.inr ⟨Or.inr h, h'⟩
      · rintro (h | ⟨rfl | h, h'⟩)
        · exact Or.inl (Or.inl h)
        · exact Or.inl (Or.inr ⟨rfl, h'⟩)
        · exact Or.inr ⟨h, h'⟩

/-! ### Lanes of segments (any history) -/

/-- Lanes know their segment and index. -/
structure InvL (w : World) : Prop where
  fwd : ∀ (s l i : Nat), (w.segment s).lanes[i]? = some l →
    (w.lane l).segment = some s ∧ (w.lane l).index = i ∧ l < w.nLanes
  bwd : ∀ (l s : Nat), l < w.nLanes → (w.lane l).segment = some s → ∃ i : Nat, (w.segment s).lanes[i]? = some l
  att : ∀ l, l < w.nLanes → ∃ s, (w.lane l).segment = some s
  fresh : ∀ s, w.nSegments ≤ s → (w.segment s).lanes = []

/-- The invariant only depends on the lanes and the lists of lanes. -/
theorem InvL.congr {w w' : World} (h : InvL w) (h1 : w'.nLanes = w.nLanes) (h2 : w'.lane = w.lane)
    (h3 : ∀ s, (w'.segment s).lanes = (w.segment s).lanes) (h4 : w.nSegments ≤ w'.nSegments) : InvL w' := by
  constructor
  · intro s l i; rw [h1, h2, h3]; exact h.fwd s l i
  · intro l s; rw [h1, h2, h3]; exact h.bwd l s
  · intro l; rw [h1, h2]; exact h.att l
  · intro s hs; rw [h3]; exact h.fresh s (by omega)

/-- `w'` has the same lanes as `w`, in the same segments. -/
structure SameLanes (w w' : World) : Prop where
  nLanes : w'.nLanes = w.nLanes
  nSegments : w'.nSegments = w.nSegments
  lane : w'.lane = w.lane
  lanes : ∀ s, (w'.segment s).lanes = (w.segment s).lanes

theorem SameLanes.rfl' (w : World) : SameLanes w w := ⟨rfl, rfl, rfl, fun _ => rfl⟩
theorem SameLanes.trans {a b c : World} (h : SameLanes a b) (h' : SameLanes b c) : SameLanes a c :=
  ⟨h'.1.trans h.1, h'.2.trans h.2, h'.3.trans h.3, fun s => (h'.4 s).trans (h.4 s)⟩

theorem sameLanes_andThen {w : World} {r : Result} {f : World → Result} (h : SameLanes w r.1)
    (hf : ∀ w', SameLanes w' (f w').1) : SameLanes w (r.andThen f).1 := by
  obtain ⟨w1, e⟩ := r
  cases e with
  | ok u => exact h.trans (hf w1)
  | error e => exact h

theorem sameLanes_forEach {f : World → Nat → Result} (hf : ∀ w x, SameLanes w (f w x).1) (l : List Nat) :
    ∀ w, SameLanes w (forEach f l w).1 := by
  induction l with
  | nil => intro w; exact .rfl' w
  | cons x xs ih => intro w; exact sameLanes_andThen (hf w x) ih

theorem sameLanes_indexLane (w : World) (l : Nat) : SameLanes w (indexLane w l).1 := by
  unfold indexLane; split <;> exact ⟨rfl, rfl, rfl, fun _ => rfl⟩
theorem sameLanes_indexSegment (w : World) (l : Nat) : SameLanes w (indexSegment w l).1 := by
  unfold indexSegment; split <;> exact ⟨rfl, rfl, rfl, fun _ => rfl⟩
theorem sameLanes_indexJunction (w : World) (l : Nat) : SameLanes w (indexJunction w l).1 := by
  unfold indexJunction; split <;> exact ⟨rfl, rfl, rfl, fun _ => rfl⟩
theorem sameLanes_indexBranchPoint (w : World) (l : Nat) : SameLanes w (indexBranchPoint w l).1 := by
  unfold indexBranchPoint; split <;> exact ⟨rfl, rfl, rfl, fun _ => rfl⟩

theorem lanes_update {f : Nat → SegmentObj} {s : Nat} {o : SegmentObj} (h : o.lanes = (f s).lanes) (x : Nat) :
    (Function.update f s o x).lanes = (f x).lanes := by
  rw [Function.update_apply]; split
  · rename_i e; rw [e, h]
  · rfl

theorem sameLanes_setCb (w : World) (s : Nat) : SameLanes w (setLaneIndexingCallback w s).1 := by
  unfold setLaneIndexingCallback
  split
  · exact .rfl' w
  · refine SameLanes.trans (b := { w with segment := Function.update w.segment s { w.segment s with callback := true } })
      ⟨rfl, rfl, rfl, ?_⟩ (sameLanes_forEach sameLanes_indexLane _ _)
    intro x; exact lanes_update (f := w.segment) (s := s) (o := { w.segment s with callback := true }) rfl x

theorem sameLanes_attachToRoadGeometry (w : World) (j : Nat) : SameLanes w (attachToRoadGeometry w j).1 := by
  unfold attachToRoadGeometry
  split
  · exact .rfl' w
  · exact SameLanes.trans (b := { w with junction := Function.update w.junction j { w.junction j with attached := true } })
      ⟨rfl, rfl, rfl, fun _ => rfl⟩
      (sameLanes_forEach (fun w s => sameLanes_andThen (sameLanes_indexSegment w s) (fun w => sameLanes_setCb w s)) _ _)

theorem sameLanes_addJunction (w : World) (j : Nat) : SameLanes w (addJunction w j).1 := by
  unfold addJunction
  exact sameLanes_andThen (SameLanes.trans (b := { w with
      junction := Function.update w.junction j { w.junction j with held := false }, junctions := w.junctions ++ [j] })
      ⟨rfl, rfl, rfl, fun _ => rfl⟩ (sameLanes_attachToRoadGeometry _ j))
    (fun w => sameLanes_indexJunction w j)

theorem sameLanes_addSegment (w : World) (j s : Nat) : SameLanes w (addSegment w j s).1 := by
  unfold addSegment
  refine sameLanes_andThen (SameLanes.trans (b := { w with
      segment := Function.update w.segment s { w.segment s with held := false },
      junction := Function.update w.junction j { w.junction j with segments := (w.junction j).segments ++ [s] } })
      ⟨rfl, rfl, rfl, fun x => lanes_update (f := w.segment) (s := s) (o := { w.segment s with held := false }) rfl x⟩ ?_) ?_
  · unfold attachToJunction
    split
    · exact .rfl' _
    · refine ⟨rfl, rfl, rfl, fun x => ?_⟩
      dsimp only
      rw [lanes_update]
      rfl
  · intro w
    refine sameLanes_andThen ?_ ?_
    · split
      · exact sameLanes_indexSegment w s
      · exact .rfl' w
    · intro w
      split
      · exact sameLanes_setCb w s
      · exact .rfl' w

theorem sameLanes_addBranchPoint (w : World) (id : String) : SameLanes w (addBranchPoint w id).1 := by
  unfold addBranchPoint
  exact SameLanes.trans (b := { w with
    nBranchPoints := w.nBranchPoints + 1, branchPointId := Function.update w.branchPointId w.nBranchPoints id,
    branchPoints := w.branchPoints ++ [w.nBranchPoints] })
    ⟨rfl, rfl, rfl, fun _ => rfl⟩ (sameLanes_indexBranchPoint _ _)

/-- The state in which `AddLane` calls the indexing callback. -/
def laneAdded (w : World) (s : Nat) (id : String) : World :=
  { w with
    nLanes := w.nLanes + 1
    lane := Function.update w.lane w.nLanes ⟨id, some s, ((w.segment s).lanes.length : Int)⟩
    segment := Function.update w.segment s { w.segment s with lanes := (w.segment s).lanes ++ [w.nLanes] } }

theorem addLane_eq (w : World) (s : Nat) (id : String) :
    addLane w s id = if (w.segment s).callback then indexLane (laneAdded w s id) w.nLanes
      else (laneAdded w s id, .ok ()) := by
  have h1 : ¬ (((w.segment s).lanes.length : Int) < 0) := by omega
  have h2 : ((((w.segment s).lanes ++ [w.nLanes]).length : Int) - 1) = ((w.segment s).lanes.length : Int) := by
    rw [List.length_append, List.length_singleton]; omega
  unfold addLane attachToSegment
  simp only [Function.update_self, if_false, Option.isSome_none, Bool.false_eq_true, h2, h1,
    Result.andThen, ne_eq, not_true_eq_false, Function.update_idem]
  rfl

theorem invL_laneAdded {w : World} (h : InvL w) (s : Nat) (id : String) (hs : s < w.nSegments) :
    InvL (laneAdded w s id) := by
  constructor
  · intro s' l i hl
    simp only [laneAdded, Function.update_apply] at hl ⊢
    by_cases e : s' = s
    · subst e
      simp only [if_true] at hl
      rw [List.getElem?_append] at hl
      split at hl
      · obtain ⟨h1, h2, h3⟩ := h.fwd s' l i hl
        rw [if_neg (by omega)]
        exact ⟨h1, h2, by omega⟩
      · rename_i hi
        have : i - (w.segment s').lanes.length = 0 ∧ w.nLanes = l := by
          rw [List.getElem?_singleton] at hl
          split at hl
          · rename_i e0; exact ⟨e0, Option.some.inj hl⟩
          · cases hl
        obtain ⟨h1, rfl⟩ := this
        rw [if_pos rfl]
        refine ⟨rfl, ?_, by omega⟩
        have : (w.segment s').lanes.length = i := by omega
        exact congrArg Int.ofNat this
    · rw [if_neg e] at hl
      obtain ⟨h1, h2, h3⟩ := h.fwd s' l i hl
      rw [if_neg (by omega)]
      exact ⟨h1, h2, by omega⟩
  · intro l s' hl hs'
    simp only [laneAdded, Function.update_apply] at hl hs' ⊢
    by_cases e : l = w.nLanes
    · subst e
      simp only [if_true] at hs'
      cases hs'
      refine ⟨(w.segment s).lanes.length, ?_⟩
      simp
    · rw [if_neg e] at hs'
      obtain ⟨i, hi⟩ := h.bwd l s' (by omega) hs'
      refine ⟨i, ?_⟩
      split
      · rename_i e2; subst e2
        rw [List.getElem?_append_left]
        · exact hi
        · exact (List.getElem?_eq_some_iff.mp hi).1
      · exact hi
  · intro l hl
    simp only [laneAdded, Function.update_apply] at hl ⊢
    by_cases e : l = w.nLanes
    · subst e; exact ⟨s, by simp⟩
    · rw [if_neg e]; exact h.att l (by omega)
  · intro s' hs'
    simp only [laneAdded, Function.update_apply] at hs' ⊢
    rw [if_neg (by omega)]
    exact h.fresh s' hs'

theorem invL_exec {w w' : World} {r : Except Err Unit} (h : InvL w) (o : Op) (he : o.exec w = some (w', r)) :
    InvL w' := by
  cases o with
  | newSegment id =>
    simp only [Op.exec, Option.some.injEq, Prod.mk.injEq] at he
    obtain ⟨rfl, -⟩ := he
    refine h.congr rfl rfl ?_ (Nat.le_succ _)
    intro s
    simp only [Function.update_apply]
    split
    · rename_i e; subst e; exact (h.fresh _ (Nat.le_refl _)).symm
    · rfl
  | newJunction id =>
    simp only [Op.exec, Option.some.injEq, Prod.mk.injEq] at he
    obtain ⟨rfl, -⟩ := he
    exact h.congr rfl rfl (fun _ => rfl) (Nat.le_refl _)
  | addLane s id =>
    simp only [Op.exec] at he
    split at he
    · rename_i hs
      rw [addLane_eq, Option.some.injEq] at he
      have hl := invL_laneAdded h s id hs
      split at he
      · have hsame := sameLanes_indexLane (laneAdded w s id) w.nLanes
        rw [he] at hsame
        exact hl.congr hsame.nLanes hsame.lane hsame.lanes (Nat.le_of_eq hsame.nSegments.symm)
      · cases he; exact hl
    · cases he
  | addSegment j s =>
    simp only [Op.exec] at he
    split at he
    · have hsame := sameLanes_addSegment w j s
      rw [Option.some.inj he] at hsame
      exact h.congr hsame.nLanes hsame.lane hsame.lanes (Nat.le_of_eq hsame.nSegments.symm)
    · cases he
  | addJunction j =>
    simp only [Op.exec] at he
    split at he
    · have hsame := sameLanes_addJunction w j
      rw [Option.some.inj he] at hsame
      exact h.congr hsame.nLanes hsame.lane hsame.lanes (Nat.le_of_eq hsame.nSegments.symm)
    · cases he
  | addBranchPoint id =>
    simp only [Op.exec] at he
    have hsame := sameLanes_addBranchPoint w id
    rw [Option.some.inj he] at hsame
    exact h.congr hsame.nLanes hsame.lane hsame.lanes (Nat.le_of_eq hsame.nSegments.symm)

theorem invL_init : InvL .init := by
  constructor
  · intro s l i h; simp [World.init] at h
  · intro l s h; simp [World.init] at h
  · intro l h; simp [World.init] at h
  · intro s _; rfl

theorem invL_reach {w : World} (h : Reach w) : InvL w := by
  induction h with
  | init => exact invL_init
  | step o _ he ih => exact invL_exec ih o he

theorem Built.reach {w : World} (h : Built w) : Reach w := by
  induction h with
  | init => exact .init
  | step o _ he ih => exact .step o ih he

/-! ### The id index (successful histories) -/

/-- What the objects and the index look like after successful calls. -/
structure InvI (w : World) : Prop where
  heldSeg : ∀ s, (w.segment s).held = true → (w.segment s).junction = none ∧ (w.segment s).callback = false
  freshSeg : ∀ s, w.nSegments ≤ s → (w.segment s).held = false ∧ (w.segment s).callback = false ∧
    (w.segment s).junction = none
  seg : ∀ s j, s ∈ (w.junction j).segments → (w.segment s).junction = some j ∧ (w.segment s).held = false
  cb : ∀ s, (w.segment s).callback = true ↔ ∃ j ∈ w.junctions, s ∈ (w.junction j).segments
  freshJun : ∀ j, w.nJunctions ≤ j → (w.junction j).segments = [] ∧ (w.junction j).held = false ∧
    (w.junction j).attached = false
  att : ∀ j, (w.junction j).attached = true ↔ j ∈ w.junctions
  heldJun : ∀ j, (w.junction j).held = true → (w.junction j).attached = false
  laneMap : ∀ id l, w.laneMap id = some l ↔
    (∃ s, (w.segment s).callback = true ∧ l ∈ (w.segment s).lanes) ∧ (w.lane l).id = id
  segmentMap : ∀ id s, w.segmentMap id = some s ↔ (∃ j ∈ w.junctions, s ∈ (w.junction j).segments) ∧ (w.segment s).id = id
  junctionMap : ∀ id j, w.junctionMap id = some j ↔ j ∈ w.junctions ∧ (w.junction j).id = id
  freshBp : ∀ b ∈ w.branchPoints, b < w.nBranchPoints
  branchPointMap : ∀ id b, w.branchPointMap id = some b ↔ b ∈ w.branchPoints ∧ w.branchPointId b = id

theorem invI_init : InvI .init := by
  constructor <;> simp [World.init]

theorem mem_lanes_lt {w : World} (h : InvL w) {s l : Nat} (hl : l ∈ (w.segment s).lanes) : l < w.nLanes := by
  obtain ⟨i, hi⟩ := List.mem_iff_getElem?.mp hl
  exact (h.fwd s l i hi).2.2

theorem invI_addLane {w w' : World} (hL : InvL w) (h : InvI w) (s : Nat) (id : String)
    (he : addLane w s id = (w', .ok ())) : InvI w' := by
  rw [addLane_eq] at he
  have hlid : ∀ x, x ≠ w.nLanes → (laneAdded w s id).lane x = w.lane x := by
    intro x hx; simp [laneAdded, hx]
  have hnew : (laneAdded w s id).lane w.nLanes = ⟨id, some s, ((w.segment s).lanes.length : Int)⟩ := by
    simp [laneAdded]
  -- everything but the lane map
  have key : ∀ m, (∀ id' l, m id' = some l ↔
      (∃ t, (w.segment t).callback = true ∧ l ∈ ((laneAdded w s id).segment t).lanes) ∧
        ((laneAdded w s id).lane l).id = id') → InvI { laneAdded w s id with laneMap := m } := by
    intro m hm
    have hj : ∀ x, ((laneAdded w s id).segment x).junction = (w.segment x).junction := by
      intro x; simp only [laneAdded, Function.update_apply]; split
      · rename_i e; rw [e]
      · rfl
    have hh : ∀ x, ((laneAdded w s id).segment x).held = (w.segment x).held := by
      intro x; simp only [laneAdded, Function.update_apply]; split
      · rename_i e; rw [e]
      · rfl
    have hc : ∀ x, ((laneAdded w s id).segment x).callback = (w.segment x).callback := by
      intro x; simp only [laneAdded, Function.update_apply]; split
      · rename_i e; rw [e]
      · rfl
    have hi : ∀ x, ((laneAdded w s id).segment x).id = (w.segment x).id := by
      intro x; simp only [laneAdded, Function.update_apply]; split
      · rename_i e; rw [e]
      · rfl
    constructor
    · intro x; simp only [hj, hh, hc]; exact h.heldSeg x
    · intro x hx; simp only [hj, hh, hc]; exact h.freshSeg x hx
    · intro x j hx; simp only [hj, hh]; exact h.seg x j hx
    · intro x; simp only [hc]; exact h.cb x
    · exact h.freshJun
    · exact h.att
    · exact h.heldJun
    · intro id' l; simp only [hc]; exact hm id' l
    · intro id' x; simp only [hi]; exact h.segmentMap id' x
    · exact h.junctionMap
    · exact h.freshBp
    · exact h.branchPointMap
  have hmem : ∀ t l, l ∈ ((laneAdded w s id).segment t).lanes ↔
      l ∈ (w.segment t).lanes ∨ (t = s ∧ l = w.nLanes) := by
    intro t l
    simp only [laneAdded, Function.update_apply]
    split
    · rename_i e; subst e; simp
    · rename_i e; simp [e]
  split at he
  · rename_i hcb
    obtain ⟨hn, rfl⟩ := indexLane_ok he
    apply key
    intro id' l
    rw [update_iff hn]
    rw [show (laneAdded w s id).laneMap = w.laneMap from rfl, h.laneMap]
    simp only [hmem]
    constructor
    · rintro (⟨⟨t, ht, hl⟩, h'⟩ | ⟨rfl, h'⟩)
      · refine ⟨⟨t, ht, Or.inl hl⟩, ?_⟩
        rw [hlid l (Nat.ne_of_lt (mem_lanes_lt hL hl))]; exact h'
      · exact ⟨⟨s, hcb, Or.inr ⟨rfl, rfl⟩⟩, h'⟩
    · rintro ⟨⟨t, ht, hl | ⟨rfl, rfl⟩⟩, h'⟩
      · rw [hlid l (Nat.ne_of_lt (mem_lanes_lt hL hl))] at h'
        exact Or.inl ⟨⟨t, ht, hl⟩, h'⟩
      · exact Or.inr ⟨rfl, h'⟩
  · rename_i hcb
    cases he
    refine key w.laneMap ?_
    intro id' l
    rw [h.laneMap]
    simp only [hmem]
    constructor
    · rintro ⟨⟨t, ht, hl⟩, h'⟩
      refine ⟨⟨t, ht, Or.inl hl⟩, ?_⟩
      rw [hlid l (Nat.ne_of_lt (mem_lanes_lt hL hl))]; exact h'
    · rintro ⟨⟨t, ht, hl | ⟨rfl, rfl⟩⟩, h'⟩
      · rw [hlid l (Nat.ne_of_lt (mem_lanes_lt hL hl))] at h'
        exact ⟨⟨t, ht, hl⟩, h'⟩
      · exact absurd ht hcb

theorem invI_addBranchPoint {w w' : World} (h : InvI w) (id : String)
    (he : addBranchPoint w id = (w', .ok ())) : InvI w' := by
  unfold addBranchPoint at he
  obtain ⟨hn, rfl⟩ := indexBranchPoint_ok he
  refine { h with freshBp := ?_, branchPointMap := ?_ }
  · intro b hb
    simp only [List.mem_append, List.mem_singleton] at hb
    rcases hb with hb | rfl
    · exact Nat.lt_succ_of_lt (h.freshBp b hb)
    · exact Nat.lt_succ_self _
  · intro id' b
    dsimp only at hn ⊢
    rw [update_iff hn]
    rw [h.branchPointMap]
    simp only [List.mem_append, List.mem_singleton, Function.update_apply, if_true]
    constructor
    · rintro (⟨hb, h'⟩ | ⟨rfl, h'⟩)
      · rw [if_neg (Nat.ne_of_lt (h.freshBp b hb))]; exact ⟨Or.inl hb, h'⟩
      · rw [if_pos rfl]; exact ⟨Or.inr rfl, h'⟩
    · rintro ⟨hb | rfl, h'⟩
      · rw [if_neg (Nat.ne_of_lt (h.freshBp b hb))] at h'; exact Or.inl ⟨hb, h'⟩
      · rw [if_pos rfl] at h'; exact Or.inr ⟨rfl, h'⟩

/-- Distinct junctions have disjoint segments. -/
theorem InvI.seg_unique {w : World} (h : InvI w) {s i j : Nat} (hi : s ∈ (w.junction i).segments)
    (hj : s ∈ (w.junction j).segments) : i = j := by
  have h1 := (h.seg s i hi).1
  rw [(h.seg s j hj).1] at h1
  exact (Option.some.inj h1).symm

theorem invI_addJunction {w w' : World} (h : InvI w) (j : Nat) (hheld : (w.junction j).held = true)
    (he : addJunction w j = (w', .ok ())) : InvI w' := by
  unfold addJunction at he
  obtain ⟨w1, h1, h2⟩ := andThen_ok he
  obtain ⟨hn, rfl⟩ := indexJunction_ok h2
  unfold attachToRoadGeometry at h1
  simp only [Function.update_self, Function.update_idem, h.heldJun j hheld, Bool.false_eq_true, if_false] at h1
  obtain ⟨ml, ms, rfl, hcb, hml, hms⟩ := attachLoop_ok _ _ _ h1
  dsimp only at hcb hml hms hn ⊢
  have hnj : j ∉ w.junctions := fun hj => by
    have := (h.att j).mpr hj
    rw [h.heldJun j hheld] at this; cases this
  have hlt : j < w.nJunctions := by
    by_contra hge
    have := (h.freshJun j (by omega)).2.1
    rw [hheld] at this; cases this
  have hsegs : ∀ x, (Function.update w.junction j { w.junction j with held := false, attached := true } x).segments
      = (w.junction x).segments := by
    intro x; rw [Function.update_apply]; split
    · rename_i e; rw [e]
    · rfl
  have hjid : ∀ x, (Function.update w.junction j { w.junction j with held := false, attached := true } x).id
      = (w.junction x).id := by
    intro x; rw [Function.update_apply]; split
    · rename_i e; rw [e]
    · rfl
  have hSlanes : ∀ x, (if x ∈ (w.junction j).segments then { w.segment x with callback := true } else w.segment x).lanes
      = (w.segment x).lanes := by intro x; split <;> rfl
  have hSid : ∀ x, (if x ∈ (w.junction j).segments then { w.segment x with callback := true } else w.segment x).id
      = (w.segment x).id := by intro x; split <;> rfl
  have hSheld : ∀ x, (if x ∈ (w.junction j).segments then { w.segment x with callback := true } else w.segment x).held
      = (w.segment x).held := by intro x; split <;> rfl
  have hSjun : ∀ x, (if x ∈ (w.junction j).segments then { w.segment x with callback := true } else w.segment x).junction
      = (w.segment x).junction := by intro x; split <;> rfl
  have hScb : ∀ x, (if x ∈ (w.junction j).segments then { w.segment x with callback := true } else w.segment x).callback = true
      ↔ (w.segment x).callback = true ∨ x ∈ (w.junction j).segments := by
    intro x; split
    · rename_i e; simp [e]
    · rename_i e; simp [e]
  constructor
  · intro x
    dsimp only
    rw [hSheld, hSjun]
    intro hx
    have hnot : x ∉ (w.junction j).segments := fun hm => by
      have := (h.seg x j hm).2; rw [hx] at this; cases this
    rw [if_neg hnot]
    exact h.heldSeg x hx
  · intro x hx
    dsimp only at hx ⊢
    rw [hSheld, hSjun]
    have hnot : x ∉ (w.junction j).segments := fun hm => by
      have := (h.seg x j hm).1; rw [(h.freshSeg x hx).2.2] at this; cases this
    rw [if_neg hnot]
    exact h.freshSeg x hx
  · intro x i hx
    dsimp only at hx ⊢
    rw [hsegs] at hx
    rw [hSheld, hSjun]
    exact h.seg x i hx
  · intro x
    dsimp only
    rw [hScb, h.cb]
    simp only [hsegs, List.mem_append, List.mem_singleton]
    constructor
    · rintro (⟨i, hi, hx⟩ | hx)
      · exact ⟨i, Or.inl hi, hx⟩
      · exact ⟨j, Or.inr rfl, hx⟩
    · rintro ⟨i, hi | rfl, hx⟩
      · exact Or.inl ⟨i, hi, hx⟩
      · exact Or.inr hx
  · intro x hx
    dsimp only at hx ⊢
    rw [Function.update_of_ne (by omega)]
    exact h.freshJun x hx
  · intro x
    dsimp only
    simp only [Function.update_apply, List.mem_append, List.mem_singleton]
    split
    · rename_i e; simp [e]
    · rename_i e; simp [e, h.att x]
  · intro x
    dsimp only
    rw [Function.update_apply]
    split
    · intro hx; cases hx
    · exact h.heldJun x
  · intro id l
    dsimp only
    rw [hml, h.laneMap]
    simp only [hSlanes, hScb]
    constructor
    · rintro (⟨⟨t, ht, hl⟩, h'⟩ | ⟨⟨t, ht, hl⟩, h'⟩)
      · exact ⟨⟨t, Or.inl ht, hl⟩, h'⟩
      · exact ⟨⟨t, Or.inr ht, hl⟩, h'⟩
    · rintro ⟨⟨t, ht | ht, hl⟩, h'⟩
      · exact Or.inl ⟨⟨t, ht, hl⟩, h'⟩
      · exact Or.inr ⟨⟨t, ht, hl⟩, h'⟩
  · intro id x
    dsimp only
    rw [hms, h.segmentMap]
    simp only [hsegs, hSid, List.mem_append, List.mem_singleton]
    constructor
    · rintro (⟨⟨t, ht, hl⟩, h'⟩ | ⟨hl, h'⟩)
      · exact ⟨⟨t, Or.inl ht, hl⟩, h'⟩
      · exact ⟨⟨j, Or.inr rfl, hl⟩, h'⟩
    · rintro ⟨⟨t, ht | rfl, hl⟩, h'⟩
      · exact Or.inl ⟨⟨t, ht, hl⟩, h'⟩
      · exact Or.inr ⟨hl, h'⟩
  · intro id x
    dsimp only
    rw [update_iff hn, h.junctionMap]
    simp only [hjid, List.mem_append, List.mem_singleton]
    constructor
    · rintro (⟨h1, h2⟩ | ⟨rfl, h2⟩)
      · exact ⟨Or.inl h1, h2⟩
      · exact ⟨Or.inr rfl, h2⟩
    · rintro ⟨h1 | rfl, h3⟩
      · exact Or.inl ⟨h1, h3⟩
      · exact Or.inr ⟨rfl, h3⟩
  · exact h.freshBp
  · exact h.branchPointMap

/-- The state in which `AddSegment` starts indexing. -/
def segmentAdded (w : World) (j s : Nat) : World :=
  { w with
    segment := Function.update w.segment s { w.segment s with held := false, junction := some j }
    junction := Function.update w.junction j { w.junction j with segments := (w.junction j).segments ++ [s] } }

theorem addSegment_eq (w : World) (j s : Nat) (h : (w.segment s).junction = none) :
    addSegment w j s = if (w.junction j).attached then
        (indexSegment (segmentAdded w j s) s).andThen fun w' =>
          if (w'.junction j).attached then setLaneIndexingCallback w' s else (w', .ok ())
      else (segmentAdded w j s, .ok ()) := by
  have ha : ((segmentAdded w j s).junction j).attached = (w.junction j).attached := by simp [segmentAdded]
  have e : addSegment w j s = (if ((segmentAdded w j s).junction j).attached then indexSegment (segmentAdded w j s) s
      else (segmentAdded w j s, .ok ())).andThen fun w =>
        if (w.junction j).attached then setLaneIndexingCallback w s else (w, .ok ()) := by
    unfold addSegment attachToJunction
    simp only [Function.update_self, h, Option.isSome_none, Bool.false_eq_true, if_false, Function.update_idem]
    rfl
  rw [e]
  split
  · rename_i ht; rw [if_pos (ha ▸ ht)]
  · rename_i ht
    rw [if_neg (ha ▸ ht)]
    show (if ((segmentAdded w j s).junction j).attached then _ else _) = _
    rw [if_neg ht]

theorem invI_addSegment {w w' : World} (h : InvI w) (j s : Nat) (hj : j < w.nJunctions) (hs : s < w.nSegments)
    (hheld : (w.segment s).held = true) (he : addSegment w j s = (w', .ok ())) : InvI w' := by
  rw [addSegment_eq w j s (h.heldSeg s hheld).1] at he
  have hcbs := (h.heldSeg s hheld).2
  -- `s` is in no junction
  have hno : ∀ i, s ∉ (w.junction i).segments := fun i hm => by
    have := (h.seg s i hm).2; rw [hheld] at this; cases this
  have hsegs : ∀ i x, x ∈ (Function.update w.junction j { w.junction j with segments := (w.junction j).segments ++ [s] } i).segments
      ↔ x ∈ (w.junction i).segments ∨ (i = j ∧ x = s) := by
    intro i x; rw [Function.update_apply]; split
    · rename_i e; subst e; simp
    · rename_i e; simp [e]
  have hjid : ∀ x, (Function.update w.junction j { w.junction j with segments := (w.junction j).segments ++ [s] } x).id
      = (w.junction x).id := by
    intro x; rw [Function.update_apply]; split
    · rename_i e; rw [e]
    · rfl
  have hjatt : ∀ x, (Function.update w.junction j { w.junction j with segments := (w.junction j).segments ++ [s] } x).attached
      = (w.junction x).attached := by
    intro x; rw [Function.update_apply]; split
    · rename_i e; rw [e]
    · rfl
  have hjheld : ∀ x, (Function.update w.junction j { w.junction j with segments := (w.junction j).segments ++ [s] } x).held
      = (w.junction x).held := by
    intro x; rw [Function.update_apply]; split
    · rename_i e; rw [e]
    · rfl
  -- the state apart from the index
  have key : ∀ (cb : Bool) (ml ms : String → Option Nat),
      (cb = true ↔ (w.junction j).attached = true) →
      (∀ id l, ml id = some l ↔ w.laneMap id = some l ∨ (cb = true ∧ l ∈ (w.segment s).lanes ∧ (w.lane l).id = id)) →
      (∀ id x, ms id = some x ↔ w.segmentMap id = some x ∨ (cb = true ∧ x = s ∧ (w.segment s).id = id)) →
      InvI { w with
        segment := Function.update w.segment s { w.segment s with held := false, junction := some j, callback := cb }
        junction := Function.update w.junction j { w.junction j with segments := (w.junction j).segments ++ [s] }
        laneMap := ml, segmentMap := ms } := by
    intro cb ml ms hcb hml hms
    have hSlanes : ∀ x, (Function.update w.segment s { w.segment s with held := false, junction := some j, callback := cb } x).lanes
        = (w.segment x).lanes := by
      intro x; rw [Function.update_apply]; split
      · rename_i e; rw [e]
      · rfl
    have hSid : ∀ x, (Function.update w.segment s { w.segment s with held := false, junction := some j, callback := cb } x).id
        = (w.segment x).id := by
      intro x; rw [Function.update_apply]; split
      · rename_i e; rw [e]
      · rfl
    have hScb : ∀ x, (Function.update w.segment s { w.segment s with held := false, junction := some j, callback := cb } x).callback = true
        ↔ (w.segment x).callback = true ∨ (x = s ∧ cb = true) := by
      intro x; rw [Function.update_apply]; split
      · rename_i e; subst e; simp [hcbs]
      · rename_i e; simp [e]
    constructor
    · intro x
      dsimp only
      rw [Function.update_apply]; split
      · intro hx; cases hx
      · exact h.heldSeg x
    · intro x hx
      dsimp only at hx ⊢
      rw [Function.update_of_ne (by omega)]
      exact h.freshSeg x hx
    · intro x i hx
      dsimp only at hx ⊢
      rw [hsegs] at hx
      rcases hx with hx | ⟨rfl, rfl⟩
      · have : x ≠ s := fun e => hno i (e ▸ hx)
        rw [Function.update_of_ne this]
        exact h.seg x i hx
      · simp
    · intro x
      dsimp only
      rw [hScb, h.cb]
      simp only [hsegs]
      constructor
      · rintro (⟨i, hi, hx⟩ | ⟨rfl, hx⟩)
        · exact ⟨i, hi, Or.inl hx⟩
        · exact ⟨j, (h.att j).mp (hcb.mp hx), Or.inr ⟨rfl, rfl⟩⟩
      · rintro ⟨i, hi, hx | ⟨rfl, rfl⟩⟩
        · exact Or.inl ⟨i, hi, hx⟩
        · exact Or.inr ⟨rfl, hcb.mpr ((h.att _).mpr hi)⟩
    · intro x hx
      dsimp only at hx ⊢
      rw [Function.update_of_ne (by omega)]
      exact h.freshJun x hx
    · intro x; dsimp only; rw [hjatt]; exact h.att x
    · intro x; dsimp only; rw [hjatt, hjheld]; exact h.heldJun x
    · intro id l
      dsimp only
      rw [hml, h.laneMap]
      simp only [hSlanes, hScb]
      constructor
      · rintro (⟨⟨t, ht, hl⟩, h'⟩ | ⟨ht, hl, h'⟩)
        · exact ⟨⟨t, Or.inl ht, hl⟩, h'⟩
        · exact ⟨⟨s, Or.inr ⟨rfl, ht⟩, hl⟩, h'⟩
      · rintro ⟨⟨t, ht | ⟨rfl, ht⟩, hl⟩, h'⟩
        · exact Or.inl ⟨⟨t, ht, hl⟩, h'⟩
        · exact Or.inr ⟨ht, hl, h'⟩
    · intro id x
      dsimp only
      rw [hms, h.segmentMap]
      simp only [hsegs, hSid]
      constructor
      · rintro (⟨⟨t, ht, hl⟩, h'⟩ | ⟨ht, rfl, h'⟩)
        · exact ⟨⟨t, ht, Or.inl hl⟩, h'⟩
        · exact ⟨⟨j, (h.att j).mp (hcb.mp ht), Or.inr ⟨rfl, rfl⟩⟩, h'⟩
      · rintro ⟨⟨t, ht, hl | ⟨rfl, rfl⟩⟩, h'⟩
        · exact Or.inl ⟨⟨t, ht, hl⟩, h'⟩
        · exact Or.inr ⟨hcb.mpr ((h.att _).mpr ht), rfl, h'⟩
    · intro id x
      dsimp only
      rw [hjid]; exact h.junctionMap id x
    · exact h.freshBp
    · exact h.branchPointMap
  split at he
  · rename_i hatt
    obtain ⟨w2, h3, h4⟩ := andThen_ok he
    obtain ⟨hn, rfl⟩ := indexSegment_ok h3
    have ha : ((segmentAdded w j s).junction j).attached = true := by simp [segmentAdded, hatt]
    rw [if_pos ha] at h4
    obtain ⟨-, m, rfl, hm⟩ := setLaneIndexingCallback_ok h4
    have hsid : ((segmentAdded w j s).segment s).id = (w.segment s).id := by simp [segmentAdded]
    have hsl : ((segmentAdded w j s).segment s).lanes = (w.segment s).lanes := by simp [segmentAdded]
    have := key true m (Function.update w.segmentMap (w.segment s).id (some s)) (by simp [hatt]) ?_ ?_
    · simpa only [segmentAdded, Function.update_self, Function.update_idem] using this
    · intro id l
      rw [hm]
      simp only [hsl, true_and]
      rfl
    · intro id x
      rw [hsid] at hn
      rw [update_iff (m := w.segmentMap) hn]
      simp
  · rename_i hatt
    cases he
    exact key (w.segment s).callback w.laneMap w.segmentMap (by rw [hcbs]; simpa using hatt) (by simp [hcbs])
      (by simp [hcbs])

theorem invI_exec {w w' : World} (hL : InvL w) (h : InvI w) (o : Op) (he : o.exec w = some (w', .ok ())) :
    InvI w' := by
  cases o with
  | newSegment id =>
    simp only [Op.exec, Option.some.injEq, Prod.mk.injEq, and_true] at he
    subst he
    have hf := h.freshSeg w.nSegments (Nat.le_refl _)
    have hno : ∀ i, w.nSegments ∉ (w.junction i).segments := fun i hm => by
      have := (h.seg _ i hm).1; rw [hf.2.2] at this; cases this
    refine { h with heldSeg := ?_, freshSeg := ?_, seg := ?_, cb := ?_, laneMap := ?_, segmentMap := ?_ }
    · intro x
      dsimp only
      rw [Function.update_apply]; split
      · intro _; exact ⟨rfl, rfl⟩
      · exact h.heldSeg x
    · intro x hx
      dsimp only at hx ⊢
      rw [Function.update_of_ne (by omega)]
      exact h.freshSeg x (by omega)
    · intro x i hx
      dsimp only at hx ⊢
      rw [Function.update_of_ne (fun e => hno i (by rw [← e]; exact hx))]
      exact h.seg x i hx
    · intro x
      dsimp only
      rw [Function.update_apply]; split
      · rename_i e; subst e
        constructor
        · intro hx; cases hx
        · rintro ⟨i, -, hx⟩; exact absurd hx (hno i)
      · exact h.cb x
    · intro id' l
      dsimp only
      rw [h.laneMap]
      refine and_congr_left fun _ => exists_congr fun t => ?_
      rw [Function.update_apply]; split
      · rename_i e; subst e
        simp [hf.2.1]
      · rfl
    · intro id' x
      dsimp only
      rw [h.segmentMap]
      refine and_congr_right fun ⟨i, _, hx⟩ => ?_
      rw [Function.update_of_ne (fun e => hno i (by rw [← e]; exact hx))]
  | newJunction id =>
    simp only [Op.exec, Option.some.injEq, Prod.mk.injEq, and_true] at he
    subst he
    have hf := h.freshJun w.nJunctions (Nat.le_refl _)
    have hnj : w.nJunctions ∉ w.junctions := fun hm => by
      have := (h.att _).mpr hm; rw [hf.2.2] at this; cases this
    have hsegs : ∀ i, (Function.update w.junction w.nJunctions ⟨id, true, false, []⟩ i).segments = (w.junction i).segments := by
      intro i; rw [Function.update_apply]; split
      · rename_i e; rw [e, hf.1]
      · rfl
    refine { h with seg := ?_, cb := ?_, freshJun := ?_, att := ?_, heldJun := ?_, segmentMap := ?_, junctionMap := ?_ }
    · intro x i hx
      dsimp only at hx ⊢
      rw [hsegs] at hx; exact h.seg x i hx
    · intro x; dsimp only; simp only [hsegs]; exact h.cb x
    · intro x hx
      dsimp only at hx ⊢
      rw [Function.update_of_ne (by omega)]
      exact h.freshJun x (by omega)
    · intro x
      dsimp only
      rw [Function.update_apply]; split
      · rename_i e; subst e; simp [hnj]
      · exact h.att x
    · intro x
      dsimp only
      rw [Function.update_apply]; split
      · intro _; rfl
      · exact h.heldJun x
    · intro id' x; dsimp only; simp only [hsegs]; exact h.segmentMap id' x
    · intro id' x
      dsimp only
      rw [h.junctionMap]
      refine and_congr_right fun hx => ?_
      rw [Function.update_of_ne (fun e => hnj (by rw [← e]; exact hx))]
  | addLane s id =>
    simp only [Op.exec] at he
    split at he
    · exact invI_addLane hL h s id (Option.some.inj he)
    · cases he
  | addSegment j s =>
    simp only [Op.exec] at he
    split at he
    · rename_i hc; exact invI_addSegment h j s hc.1 hc.2.1 hc.2.2 (Option.some.inj he)
    · cases he
  | addJunction j =>
    simp only [Op.exec] at he
    split at he
    · rename_i hc; exact invI_addJunction h j hc.2 (Option.some.inj he)
    · cases he
  | addBranchPoint id => exact invI_addBranchPoint h id (Option.some.inj he)

theorem invI_built {w : World} (h : Built w) : InvI w := by
  induction h with
  | init => exact invI_init
  | step o hb he ih => exact invI_exec (invL_reach hb.reach) ih o he

end Maliput.Build
