import Mathlib.Data.List.Nodup
import Verif.Lemmas.GeometryBase

set_option autoImplicit false

/-! Calls that put a road geometry together succeed unless ids repeat. -/
namespace Maliput.Build

/-- `w'` contains the same objects, put together in the same way, with the same ids. -/
structure SameShape (w w' : World) : Prop where
  lane : w'.lane = w.lane
  segId : ∀ s, (w'.segment s).id = (w.segment s).id
  lanes : ∀ s, (w'.segment s).lanes = (w.segment s).lanes
  junction : w'.junction = w.junction
  junctions : w'.junctions = w.junctions
  branchPoints : w'.branchPoints = w.branchPoints
  branchPointId : w'.branchPointId = w.branchPointId

theorem SameShape.rfl' (w : World) : SameShape w w := ⟨rfl, fun _ => rfl, fun _ => rfl, rfl, rfl, rfl, rfl⟩

theorem SameShape.trans {a b c : World} (h : SameShape a b) (h' : SameShape b c) : SameShape a c :=
  ⟨h'.1.trans h.1, fun s => (h'.2 s).trans (h.2 s), fun s => (h'.3 s).trans (h.3 s), h'.4.trans h.4, h'.5.trans h.5,
    h'.6.trans h.6, h'.7.trans h.7⟩

theorem SameShape.hasSegment {w w' : World} (h : SameShape w w') (s : Nat) : HasSegment w' s ↔ HasSegment w s := by
  unfold HasSegment; rw [h.junction, h.junctions]

theorem SameShape.hasLane {w w' : World} (h : SameShape w w') (l : Nat) : HasLane w' l ↔ HasLane w l := by
  unfold HasLane; simp only [h.hasSegment, h.lanes]

theorem SameShape.unique {w w' : World} (h : SameShape w w') (hu : UniqueIds w') : UniqueIds w where
  lanes l m hl hm e := hu.lanes l m ((h.hasLane l).mpr hl) ((h.hasLane m).mpr hm) (by rw [h.lane]; exact e)
  segments l m hl hm e := hu.segments l m ((h.hasSegment l).mpr hl) ((h.hasSegment m).mpr hm) (by rw [h.segId, h.segId]; exact e)
  junctions l m hl hm e := hu.junctions l m (h.junctions ▸ hl) (h.junctions ▸ hm) (by rw [h.junction]; exact e)
  branchPoints l m hl hm e := hu.branchPoints l m (h.branchPoints ▸ hl) (h.branchPoints ▸ hm) (by rw [h.branchPointId]; exact e)

/-- A call that only fails by throwing and only changes indices and callbacks. -/
structure Mild (w : World) (r : Result) : Prop where
  shape : SameShape w r.1
  throws : r.2 = .ok () ∨ r.2 = .error .throws

theorem mild_andThen {w : World} {r : Result} {f : World → Result} (h : Mild w r) (hf : ∀ w', Mild w' (f w')) :
    Mild w (r.andThen f) := by
  obtain ⟨w1, e⟩ := r
  cases e with
  | ok u => exact ⟨h.shape.trans (hf w1).shape, (hf w1).throws⟩
  | error e => exact h

theorem mild_forEach {f : World → Nat → Result} (hf : ∀ w x, Mild w (f w x)) (l : List Nat) : ∀ w, Mild w (forEach f l w) := by
  induction l with
  | nil => intro w; exact ⟨.rfl' w, .inl rfl⟩
  | cons x xs ih => intro w; exact mild_andThen (hf w x) ih

theorem mild_indexLane (w : World) (l : Nat) : Mild w (indexLane w l) := by
  unfold indexLane; split
  · exact ⟨⟨rfl, fun _ => rfl, fun _ => rfl, rfl, rfl, rfl, rfl⟩, .inl rfl⟩
  · exact ⟨.rfl' w, .inr rfl⟩
theorem mild_indexSegment (w : World) (l : Nat) : Mild w (indexSegment w l) := by
  unfold indexSegment; split
  · exact ⟨⟨rfl, fun _ => rfl, fun _ => rfl, rfl, rfl, rfl, rfl⟩, .inl rfl⟩
  · exact ⟨.rfl' w, .inr rfl⟩
theorem mild_indexJunction (w : World) (l : Nat) : Mild w (indexJunction w l) := by
  unfold indexJunction; split
  · exact ⟨⟨rfl, fun _ => rfl, fun _ => rfl, rfl, rfl, rfl, rfl⟩, .inl rfl⟩
  · exact ⟨.rfl' w, .inr rfl⟩
theorem mild_indexBranchPoint (w : World) (l : Nat) : Mild w (indexBranchPoint w l) := by
  unfold indexBranchPoint; split
  · exact ⟨⟨rfl, fun _ => rfl, fun _ => rfl, rfl, rfl, rfl, rfl⟩, .inl rfl⟩
  · exact ⟨.rfl' w, .inr rfl⟩

theorem mild_setCb (w : World) (s : Nat) : Mild w (setLaneIndexingCallback w s) := by
  unfold setLaneIndexingCallback
  split
  · exact ⟨.rfl' w, .inr rfl⟩
  · have h := mild_forEach mild_indexLane (w.segment s).lanes
      { w with segment := Function.update w.segment s { w.segment s with callback := true } }
    have h0 : SameShape w { w with segment := Function.update w.segment s { w.segment s with callback := true } } := by
      refine ⟨rfl, fun x => ?_, fun x => ?_, rfl, rfl, rfl, rfl⟩ <;>
      · dsimp only
        rw [Function.update_apply]
        split
        · rename_i e; rw [e]
        · rfl
    exact ⟨h0.trans h.shape, h.throws⟩

theorem mild_loopBody (w : World) (s : Nat) : Mild w ((indexSegment w s).andThen fun w => setLaneIndexingCallback w s) :=
  mild_andThen (mild_indexSegment w s) fun w => mild_setCb w s

theorem indexLane_total {w : World} {l : Nat} (h : w.laneMap (w.lane l).id = none) : (indexLane w l).2 = .ok () := by
  unfold indexLane; rw [h]
theorem indexSegment_total {w : World} {s : Nat} (h : w.segmentMap (w.segment s).id = none) : (indexSegment w s).2 = .ok () := by
  unfold indexSegment; rw [h]

theorem forEach_indexLane_total (ls : List Nat) : ∀ w : World, ls.Nodup →
    (∀ l ∈ ls, ∀ m ∈ ls, (w.lane l).id = (w.lane m).id → l = m) → (∀ l ∈ ls, w.laneMap (w.lane l).id = none) →
    (forEach indexLane ls w).2 = .ok () := by
  induction ls with
  | nil => intro w _ _ _; rfl
  | cons l ls ih =>
    intro w hnd hinj hfree
    rw [List.nodup_cons] at hnd
    have h0 := hfree l List.mem_cons_self
    have e : forEach indexLane (l :: ls) w =
        forEach indexLane ls { w with laneMap := Function.update w.laneMap (w.lane l).id (some l) } := by
      show (indexLane w l).andThen _ = _
      unfold indexLane
      rw [h0]
      rfl
    rw [e]
    refine ih _ hnd.2 (fun a ha b hb => hinj a (List.mem_cons_of_mem _ ha) b (List.mem_cons_of_mem _ hb)) ?_
    intro m hm
    show Function.update w.laneMap (w.lane l).id (some l) (w.lane m).id = none
    rw [Function.update_of_ne]
    · exact hfree m (List.mem_cons_of_mem _ hm)
    · intro hc
      exact hnd.1 (hinj m (List.mem_cons_of_mem _ hm) l List.mem_cons_self hc ▸ hm)

theorem setCb_total {w : World} {s : Nat} (hcb : (w.segment s).callback = false) (hnd : (w.segment s).lanes.Nodup)
    (hinj : ∀ l ∈ (w.segment s).lanes, ∀ m ∈ (w.segment s).lanes, (w.lane l).id = (w.lane m).id → l = m)
    (hfree : ∀ l ∈ (w.segment s).lanes, w.laneMap (w.lane l).id = none) : (setLaneIndexingCallback w s).2 = .ok () := by
  unfold setLaneIndexingCallback
  rw [hcb]
  exact forEach_indexLane_total _ _ hnd hinj hfree

theorem ok_pair {r : Result} (h : r.2 = .ok ()) : r = (r.1, .ok ()) := Prod.ext rfl h

theorem attachLoop_total (ss : List Nat) : ∀ w : World, ss.Nodup →
    (∀ s ∈ ss, ∀ t ∈ ss, (w.segment s).id = (w.segment t).id → s = t) →
    (∀ s ∈ ss, w.segmentMap (w.segment s).id = none ∧ (w.segment s).callback = false ∧ (w.segment s).lanes.Nodup) →
    (∀ s ∈ ss, ∀ t ∈ ss, ∀ l ∈ (w.segment s).lanes, ∀ m ∈ (w.segment t).lanes,
      (w.lane l).id = (w.lane m).id → l = m ∧ s = t) →
    (∀ s ∈ ss, ∀ l ∈ (w.segment s).lanes, w.laneMap (w.lane l).id = none) →
    (forEach (fun w s => (indexSegment w s).andThen fun w => setLaneIndexingCallback w s) ss w).2 = .ok () := by
  induction ss with
  | nil => intro w _ _ _ _ _; rfl
  | cons s ss ih =>
    intro w hnd hinj hseg hlinj hfree
    rw [List.nodup_cons] at hnd
    have h0 := hseg s List.mem_cons_self
    have hs : s ∈ s :: ss := List.mem_cons_self
    have h1 := ok_pair (indexSegment_total h0.1)
    obtain ⟨-, e1⟩ := indexSegment_ok h1
    rw [e1] at h1
    have h2 := ok_pair (setCb_total (w := { w with segmentMap := Function.update w.segmentMap (w.segment s).id (some s) }) (s := s)
      h0.2.1 h0.2.2 (fun l hl m hm e => (hlinj s hs s hs l hl m hm e).1) (hfree s hs))
    obtain ⟨-, ml, e2, hml⟩ := setLaneIndexingCallback_ok h2
    rw [e2] at h2
    have e : forEach (fun w s => (indexSegment w s).andThen fun w => setLaneIndexingCallback w s) (s :: ss) w =
        forEach (fun w s => (indexSegment w s).andThen fun w => setLaneIndexingCallback w s) ss
          { w with
            segmentMap := Function.update w.segmentMap (w.segment s).id (some s)
            segment := Function.update w.segment s { w.segment s with callback := true }
            laneMap := ml } := by
      show ((indexSegment w s).andThen fun w => setLaneIndexingCallback w s).andThen _ = _
      rw [h1]
      show (setLaneIndexingCallback _ s).andThen _ = _
      rw [h2]
      rfl
    rw [e]
    have hne : ∀ t ∈ ss, t ≠ s := fun t ht he => hnd.1 (he ▸ ht)
    have hupd : ∀ t ∈ ss, Function.update w.segment s { w.segment s with callback := true } t = w.segment t :=
      fun t ht => Function.update_of_ne (hne t ht) _ _
    refine ih _ hnd.2 ?_ ?_ ?_ ?_
    · intro a ha b hb
      dsimp only
      rw [hupd a ha, hupd b hb]
      exact hinj a (List.mem_cons_of_mem _ ha) b (List.mem_cons_of_mem _ hb)
    · intro t ht
      dsimp only
      rw [hupd t ht]
      have := hseg t (List.mem_cons_of_mem _ ht)
      refine ⟨?_, this.2⟩
      rw [Function.update_of_ne]
      · exact this.1
      · intro hc
        exact hne t ht (hinj t (List.mem_cons_of_mem _ ht) s hs hc)
    · intro a ha b hb
      dsimp only
      rw [hupd a ha, hupd b hb]
      exact hlinj a (List.mem_cons_of_mem _ ha) b (List.mem_cons_of_mem _ hb)
    · intro t ht l hl
      dsimp only at hl ⊢
      rw [hupd t ht] at hl
      rw [Option.eq_none_iff_forall_ne_some]
      intro x hx
      dsimp only at hml
      rw [hml] at hx
      rcases hx with hx | ⟨hx, he⟩
      · rw [hfree t (List.mem_cons_of_mem _ ht) l hl] at hx
        cases hx
      · exact hne t ht (hlinj s hs t (List.mem_cons_of_mem _ ht) x hx l hl he).2.symm

/-! ### Lists without repetitions -/

theorem InvL.nodup {w : World} (h : InvL w) (s : Nat) : (w.segment s).lanes.Nodup := by
  rw [List.nodup_iff_getElem?_ne_getElem?]
  intro i j hij hj he
  obtain ⟨l, hl⟩ : ∃ l, (w.segment s).lanes[j]? = some l := ⟨_, List.getElem?_eq_getElem hj⟩
  have h1 := (h.fwd s l j hl).2.1
  have h2 := (h.fwd s l i (he.trans hl)).2.1
  omega

theorem InvL.same_segment {w : World} (h : InvL w) {s t l : Nat} (hs : l ∈ (w.segment s).lanes) (ht : l ∈ (w.segment t).lanes) :
    s = t := by
  obtain ⟨i, hi⟩ := List.mem_iff_getElem?.mp hs
  obtain ⟨k, hk⟩ := List.mem_iff_getElem?.mp ht
  have := (h.fwd s l i hi).1
  rw [(h.fwd t l k hk).1] at this
  exact (Option.some.inj this).symm

theorem built_nodup {w : World} (h : Built w) (j : Nat) : (w.junction j).segments.Nodup := by
  induction h with
  | init => exact List.nodup_nil
  | @step w w' o hb he ih =>
    cases o with
    | newSegment id =>
      simp only [Op.exec, Option.some.injEq, Prod.mk.injEq, and_true] at he
      subst he
      exact ih
    | newJunction id =>
      simp only [Op.exec, Option.some.injEq, Prod.mk.injEq, and_true] at he
      subst he
      dsimp only
      rw [Function.update_apply]
      split
      · exact List.nodup_nil
      · exact ih
    | addLane s id =>
      simp only [Op.exec] at he
      split at he
      · rw [addLane_eq] at he
        simp only [Option.some.injEq] at he
        split at he
        · have := (mild_indexLane (laneAdded w s id) w.nLanes).shape.junction
          rw [he] at this
          dsimp only at this
          rw [this]
          exact ih
        · cases he
          exact ih
      · cases he
    | addSegment i s =>
      simp only [Op.exec] at he
      split at he
      · rename_i hc
        have hI := invI_built hb
        have hh := hI.heldSeg s hc.2.2
        rw [addSegment_eq w i s hh.1] at he
        simp only [Option.some.injEq] at he
        have hnd : ((segmentAdded w i s).junction j).segments.Nodup := by
          simp only [segmentAdded, Function.update_apply]
          split
          · rename_i e
            subst e
            show ((w.junction j).segments ++ [s]).Nodup
            rw [List.nodup_append]
            refine ⟨ih, List.nodup_singleton _, ?_⟩
            rintro a ha b hb rfl
            rw [List.mem_singleton] at hb
            subst hb
            have := (hI.seg a j ha).2
            rw [hc.2.2] at this
            cases this
          · exact ih
        split at he
        · have := (mild_andThen (mild_indexSegment (segmentAdded w i s) s) (f := fun w' =>
            if (w'.junction i).attached then setLaneIndexingCallback w' s else (w', .ok ())) (fun w' => by
              split
              · exact mild_setCb w' s
              · exact ⟨.rfl' w', .inl rfl⟩)).shape.junction
          rw [he] at this
          dsimp only at this
          rw [this]
          exact hnd
        · cases he
          exact hnd
      · cases he
    | addJunction i =>
      simp only [Op.exec] at he
      split at he
      · rename_i hc
        simp only [Option.some.injEq] at he
        unfold addJunction at he
        obtain ⟨w1, h1, h2⟩ := andThen_ok he
        obtain ⟨-, rfl⟩ := indexJunction_ok h2
        unfold attachToRoadGeometry at h1
        split at h1
        · cases h1
        · obtain ⟨ml, ms, rfl, -⟩ := attachLoop_ok _ _ _ h1
          dsimp only
          simp only [Function.update_self, Function.update_idem]
          rw [Function.update_apply]
          split
          · rename_i e
            subst e
            exact ih
          · exact ih
      · cases he
    | addBranchPoint id =>
      simp only [Op.exec, Option.some.injEq] at he
      have := (mild_indexBranchPoint { w with nBranchPoints := w.nBranchPoints + 1, branchPointId := Function.update w.branchPointId w.nBranchPoints id,
                                              branchPoints := w.branchPoints ++ [w.nBranchPoints] } w.nBranchPoints).shape.junction
      unfold addBranchPoint at he
      dsimp only at he
      rw [he] at this
      dsimp only at this
      rw [this]
      exact ih

/-! ### Calls succeed unless ids repeat -/

theorem addLane_total {w : World} (hL : InvL w) (hI : InvI w) (s : Nat) (id : String) :
    ((addLane w s id).2 = .ok () ∨ (addLane w s id).2 = .error .throws) ∧
    (UniqueIds (addLane w s id).1 → (addLane w s id).2 = .ok ()) := by
  rw [addLane_eq]
  split
  · rename_i hcb
    have hm := mild_indexLane (laneAdded w s id) w.nLanes
    refine ⟨hm.throws, fun hu => indexLane_total ?_⟩
    have hu := hm.shape.unique hu
    have hnew : ((laneAdded w s id).lane w.nLanes).id = id := by simp [laneAdded]
    rw [hnew, Option.eq_none_iff_forall_ne_some]
    intro x hx
    obtain ⟨⟨t, ht, hxt⟩, hid⟩ := (hI.laneMap id x).mp hx
    have hlt := mem_lanes_lt hL hxt
    have hseg : ∀ t, HasSegment w t → HasSegment (laneAdded w s id) t := fun _ h => h
    have hmem : x ∈ ((laneAdded w s id).segment t).lanes := by
      simp only [laneAdded, Function.update_apply]
      split
      · rename_i e; subst e; exact List.mem_append_left _ hxt
      · exact hxt
    have hmem' : w.nLanes ∈ ((laneAdded w s id).segment s).lanes := by simp [laneAdded]
    have hidx : ((laneAdded w s id).lane x).id = id := by simp [laneAdded, Function.update_of_ne (Nat.ne_of_lt hlt), hid]
    have := hu.lanes x w.nLanes ⟨t, hseg t ((hI.cb t).mp ht), hmem⟩ ⟨s, hseg s ((hI.cb s).mp hcb), hmem'⟩ (by rw [hidx, hnew])
    omega
  · exact ⟨.inl rfl, fun _ => rfl⟩

theorem addBranchPoint_total {w : World} (hI : InvI w) (id : String) :
    ((addBranchPoint w id).2 = .ok () ∨ (addBranchPoint w id).2 = .error .throws) ∧
    (UniqueIds (addBranchPoint w id).1 → (addBranchPoint w id).2 = .ok ()) := by
  unfold addBranchPoint
  dsimp only
  set v : World := { w with nBranchPoints := w.nBranchPoints + 1, branchPointId := Function.update w.branchPointId w.nBranchPoints id,
                            branchPoints := w.branchPoints ++ [w.nBranchPoints] } with hv
  have hm := mild_indexBranchPoint v w.nBranchPoints
  refine ⟨hm.throws, fun hu => ?_⟩
  have hu := hm.shape.unique hu
  have hnew : v.branchPointId w.nBranchPoints = id := by simp [hv]
  have : v.branchPointMap (v.branchPointId w.nBranchPoints) = none := by
    rw [hnew, Option.eq_none_iff_forall_ne_some]
    intro x hx
    obtain ⟨hx, hid⟩ := (hI.branchPointMap id x).mp hx
    have hlt := hI.freshBp x hx
    have := hu.branchPoints x w.nBranchPoints (List.mem_append_left _ hx) (List.mem_append_right _ (by simp)) (by
      rw [hnew]
      simp [hv, Function.update_of_ne (Nat.ne_of_lt hlt), hid])
    omega
  unfold indexBranchPoint
  rw [this]

theorem addSegment_total {w : World} (hL : InvL w) (hI : InvI w) (j s : Nat) (hheld : (w.segment s).held = true) :
    ((addSegment w j s).2 = .ok () ∨ (addSegment w j s).2 = .error .throws) ∧
    (UniqueIds (addSegment w j s).1 → (addSegment w j s).2 = .ok ()) := by
  rw [addSegment_eq w j s (hI.heldSeg s hheld).1]
  split
  · rename_i hatt
    have hm := mild_andThen (mild_indexSegment (segmentAdded w j s) s) (f := fun w' =>
      if (w'.junction j).attached then setLaneIndexingCallback w' s else (w', .ok ())) (fun w' => by
        split
        · exact mild_setCb w' s
        · exact ⟨.rfl' w', .inl rfl⟩)
    refine ⟨hm.throws, fun hu => ?_⟩
    have hu := hm.shape.unique hu
    have hj := (hI.att j).mp hatt
    have hno : ∀ i, s ∉ (w.junction i).segments := fun i hm => by
      have := (hI.seg s i hm).2; rw [hheld] at this; cases this
    have hkeep : ∀ t, HasSegment w t → HasSegment (segmentAdded w j s) t := by
      rintro t ⟨i, hi, ht⟩
      refine ⟨i, hi, ?_⟩
      simp only [segmentAdded, Function.update_apply]
      split
      · rename_i e; subst e; exact List.mem_append_left _ ht
      · exact ht
    have hnew : HasSegment (segmentAdded w j s) s := ⟨j, hj, by simp [segmentAdded]⟩
    have hsid : ∀ t, ((segmentAdded w j s).segment t).id = (w.segment t).id := by
      intro t; simp only [segmentAdded, Function.update_apply]; split
      · rename_i e; rw [e]
      · rfl
    have hlanes : ∀ t, ((segmentAdded w j s).segment t).lanes = (w.segment t).lanes := by
      intro t; simp only [segmentAdded, Function.update_apply]; split
      · rename_i e; rw [e]
      · rfl
    have hfree : (segmentAdded w j s).segmentMap ((segmentAdded w j s).segment s).id = none := by
      rw [hsid, Option.eq_none_iff_forall_ne_some]
      intro t ht
      obtain ⟨hts, hid⟩ := (hI.segmentMap _ t).mp ht
      have := hu.segments t s (hkeep t hts) hnew (by rw [hsid, hsid, hid])
      subst this
      obtain ⟨i, -, hi⟩ := hts
      exact hno i hi
    have h1 := ok_pair (indexSegment_total hfree)
    obtain ⟨-, e1⟩ := indexSegment_ok h1
    rw [e1] at h1
    rw [h1]
    have hatt' : ((segmentAdded w j s).junction j).attached = true := by simpa [segmentAdded] using hatt
    show (if ((segmentAdded w j s).junction j).attached then _ else _ : Result).2 = _
    rw [if_pos hatt']
    have hcb : ((segmentAdded w j s).segment s).callback = false := by
      simp only [segmentAdded, Function.update_self]
      exact (hI.heldSeg s hheld).2
    apply setCb_total
    · exact hcb
    · show ((segmentAdded w j s).segment s).lanes.Nodup
      rw [hlanes]
      exact hL.nodup s
    · intro l hl m hm he
      exact hu.lanes l m ⟨s, hnew, hl⟩ ⟨s, hnew, hm⟩ he
    · intro l hl
      have hl' : l ∈ ((segmentAdded w j s).segment s).lanes := hl
      show w.laneMap (w.lane l).id = none
      rw [Option.eq_none_iff_forall_ne_some]
      intro x hx
      obtain ⟨⟨t, ht, hxt⟩, hid⟩ := (hI.laneMap _ x).mp hx
      have := hu.lanes x l ⟨t, hkeep t ((hI.cb t).mp ht), by rw [hlanes]; exact hxt⟩ ⟨s, hnew, hl'⟩ hid
      subst this
      rw [hlanes] at hl'
      have := hL.same_segment hl' hxt
      subst this
      rw [(hI.heldSeg s hheld).2] at ht
      cases ht
  · exact ⟨.inl rfl, fun _ => rfl⟩

/-- The state in which `AddJunction` begins to index. -/
def junctionAdded (w : World) (j : Nat) : World :=
  { w with
    junction := Function.update w.junction j { w.junction j with held := false, attached := true }
    junctions := w.junctions ++ [j] }

theorem addJunction_eq (w : World) (j : Nat) (h : (w.junction j).attached = false) :
    addJunction w j = (forEach (fun w s => (indexSegment w s).andThen fun w => setLaneIndexingCallback w s)
      (w.junction j).segments (junctionAdded w j)).andThen fun w => indexJunction w j := by
  unfold addJunction attachToRoadGeometry
  simp only [Function.update_self, Function.update_idem, h, Bool.false_eq_true, if_false]
  rfl

theorem addJunction_total {w : World} (hL : InvL w) (hI : InvI w) (j : Nat) (hnd : (w.junction j).segments.Nodup)
    (hheld : (w.junction j).held = true) :
    ((addJunction w j).2 = .ok () ∨ (addJunction w j).2 = .error .throws) ∧
    (UniqueIds (addJunction w j).1 → (addJunction w j).2 = .ok ()) := by
  have hatt := hI.heldJun j hheld
  rw [addJunction_eq w j hatt]
  have hm := mild_andThen (mild_forEach mild_loopBody (w.junction j).segments (junctionAdded w j)) fun w => mild_indexJunction w j
  refine ⟨hm.throws, fun hu => ?_⟩
  have hu := hm.shape.unique hu
  have hnj : j ∉ w.junctions := fun h => by rw [(hI.att j).mpr h] at hatt; cases hatt
  have hsegs : ∀ i, ((junctionAdded w j).junction i).segments = (w.junction i).segments := by
    intro i; simp only [junctionAdded, Function.update_apply]; split
    · rename_i e; rw [e]
    · rfl
  have hjid : ∀ i, ((junctionAdded w j).junction i).id = (w.junction i).id := by
    intro i; simp only [junctionAdded, Function.update_apply]; split
    · rename_i e; rw [e]
    · rfl
  have hnew : ∀ s ∈ (w.junction j).segments, HasSegment (junctionAdded w j) s := fun s hs =>
    ⟨j, List.mem_append_right _ (by simp), by rw [hsegs]; exact hs⟩
  have hkeep : ∀ t, HasSegment w t → HasSegment (junctionAdded w j) t := by
    rintro t ⟨i, hi, ht⟩
    exact ⟨i, List.mem_append_left _ hi, by rw [hsegs]; exact ht⟩
  have hcb : ∀ s ∈ (w.junction j).segments, (w.segment s).callback = false := by
    intro s hs
    rw [← Bool.not_eq_true, hI.cb]
    rintro ⟨i, hi, hsi⟩
    exact hnj (hI.seg_unique hsi hs ▸ hi)
  have hsfree : ∀ s ∈ (w.junction j).segments, w.segmentMap (w.segment s).id = none := by
    intro s hs
    rw [Option.eq_none_iff_forall_ne_some]
    intro t ht
    obtain ⟨hts, hid⟩ := (hI.segmentMap _ t).mp ht
    have := hu.segments t s (hkeep t hts) (hnew s hs) hid
    subst this
    have h1 := (hI.cb t).mpr hts
    rw [hcb t hs] at h1
    cases h1
  have hloop := ok_pair (attachLoop_total (w.junction j).segments (junctionAdded w j) hnd
    (fun s hs t ht e => hu.segments s t (hnew s hs) (hnew t ht) e)
    (fun s hs => ⟨hsfree s hs, hcb s hs, hL.nodup s⟩)
    (fun s hs t ht l hl m hm e => by
      have := hu.lanes l m ⟨s, hnew s hs, hl⟩ ⟨t, hnew t ht, hm⟩ e
      subst this
      exact ⟨rfl, hL.same_segment hl hm⟩)
    (fun s hs l hl => by
      show w.laneMap (w.lane l).id = none
      rw [Option.eq_none_iff_forall_ne_some]
      intro x hx
      obtain ⟨⟨t, ht, hxt⟩, hid⟩ := (hI.laneMap _ x).mp hx
      have := hu.lanes x l ⟨t, hkeep t ((hI.cb t).mp ht), hxt⟩ ⟨s, hnew s hs, hl⟩ hid
      subst this
      have := hL.same_segment hl hxt
      subst this
      rw [hcb s hs] at ht
      cases ht))
  obtain ⟨ml, ms, e, -⟩ := attachLoop_ok _ _ _ hloop
  rw [hloop, e]
  show (indexJunction _ j).2 = _
  unfold indexJunction
  have : w.junctionMap ((junctionAdded w j).junction j).id = none := by
    rw [hjid, Option.eq_none_iff_forall_ne_some]
    intro i hi
    obtain ⟨hij, hid⟩ := (hI.junctionMap _ i).mp hi
    have := hu.junctions i j (List.mem_append_left _ hij) (List.mem_append_right _ (by simp)) (by rw [hjid, hjid, hid])
    subst this
    exact hnj hij
  dsimp only
  rw [show (junctionAdded w j).junctionMap = w.junctionMap from rfl, this]

end Maliput.Build
