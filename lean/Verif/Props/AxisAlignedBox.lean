import Verif.Lemmas.AxisAlignedBox
import Verif.Lemmas.Monad

set_option autoImplicit false

/-! Property C06: axis-aligned boxes. -/
namespace Maliput.Props
open Maliput Maliput.Spec AxisAlignedBox

/-- C06: the constructor accepts exactly the valid boxes. -/
theorem aabb_make_iff (mn mx : Vec3) (t : ℚ) :
    (∃ b, AxisAlignedBox.make mn mx t = .ok b) ↔ ValidBox ⟨mn, mx, t⟩ := by
  constructor
  · rintro ⟨b, hb⟩
    unfold AxisAlignedBox.make at hb
    unfold ValidBox
    rw [forall_fin3]
    by_cases h0 : t ≥ 0
    · by_cases h1 : mn 0 ≤ mx 0
      · by_cases h2 : mn 1 ≤ mx 1
        · by_cases h3 : mn 2 ≤ mx 2
          · exact ⟨h0, h1, h2, h3⟩
          · rw [decide_eq_true h0, decide_eq_true h1, decide_eq_true h2, decide_eq_false h3] at hb; cases hb
        · rw [decide_eq_true h0, decide_eq_true h1, decide_eq_false h2] at hb; cases hb
      · rw [decide_eq_true h0, decide_eq_false h1] at hb; cases hb
    · rw [decide_eq_false h0] at hb; cases hb
  · intro h
    exact ⟨_, AxisAlignedBox.make_ok h.1 h.2⟩

/-- C06: a point is reported as contained exactly when it is in the box widened by the tolerance. -/
theorem aabb_contains_iff (b : AxisAlignedBox) (p : Vec3) :
    b.contains p = true ↔ InBox b b.tolerance p := AxisAlignedBox.contains_iff b p

/-- C06: without a tolerance given, a box has the given corners and contains the points within 1e-14 of it. -/
theorem aabb_default (lo hi : Vec3) (b : AxisAlignedBox) (h : AxisAlignedBox.makeDefault lo hi = .ok b) (p : Vec3) :
    b.minCorner = lo ∧ b.maxCorner = hi ∧ (b.contains p = true ↔ InBox b (1 / 10 ^ 14) p) := by
  unfold AxisAlignedBox.makeDefault AxisAlignedBox.make at h
  rw [bind_ok] at h
  obtain ⟨_, -, h⟩ := h
  repeat (rw [bind_ok] at h; obtain ⟨_, -, h⟩ := h)
  obtain rfl := Except.ok.inj h
  exact ⟨rfl, rfl, aabb_contains_iff _ p⟩

example : ∃ b, AxisAlignedBox.makeDefault (fun _ => .fin 0) (fun _ => .fin 1) = .ok b := ⟨_, AxisAlignedBox.make_ok
  (show (0 : ℚ) ≤ kTolerance by decide +kernel) (fun _ => show Ext.fin 0 ≤ Ext.fin 1 by decide +kernel)⟩

/-- C06: `kDisjointed` exactly when the boxes share no point. -/
theorem aabb_disjointed_iff (a b : AxisAlignedBox) (ha : ValidBox a) (hb : ValidBox b) :
    a.overlaps b = .disjointed ↔ ¬ ∃ p, Mem a p ∧ Mem b p := by
  rw [← isBoxIntersected_iff a b ha hb]
  unfold overlaps
  split_ifs <;> simp_all

/-- C06: `kContained` exactly when every point of `b` is a point of `a` up to `a`'s tolerance and
the boxes share a point. -/
theorem aabb_contained_iff (a b : AxisAlignedBox) (ha : ValidBox a) (hb : ValidBox b) :
    a.overlaps b = .contained ↔
      (∃ p, Mem a p ∧ Mem b p) ∧ ∀ p, Mem b p → InBox a a.tolerance p := by
  rw [← isBoxIntersected_iff a b ha hb, ← isBoxContained_iff a b hb]
  unfold overlaps
  split_ifs <;> simp_all

/-- C06 with tolerance zero: `kContained` exactly when every point of `b` is a point of `a`. -/
theorem aabb_contained_exact (a b : AxisAlignedBox) (ha : ValidBox a) (hb : ValidBox b)
    (ht : a.tolerance = 0) :
    a.overlaps b = .contained ↔ ∀ p, Mem b p → Mem a p := by
  rw [aabb_contained_iff a b ha hb, ht]
  simp only [inBox_zero]
  constructor
  · exact fun h => h.2
  · intro h
    have hm : Mem b b.minCorner := fun i => ⟨le_refl _, hb.2 i⟩
    exact ⟨⟨b.minCorner, h _ hm, hm⟩, h⟩

/-- C06: `kIntersected` in all the other cases. -/
theorem aabb_intersected_iff (a b : AxisAlignedBox) (ha : ValidBox a) (hb : ValidBox b) :
    a.overlaps b = .intersected ↔
      (∃ p, Mem a p ∧ Mem b p) ∧ ¬ ∀ p, Mem b p → InBox a a.tolerance p := by
  rw [← isBoxIntersected_iff a b ha hb, ← isBoxContained_iff a b hb]
  unfold overlaps
  split_ifs <;> simp_all

/-- C06: the intersection exists exactly when the boxes share a point, the call never throws, the
result is a valid box and holds exactly the shared points. -/
theorem aabb_getIntersection (a b : AxisAlignedBox) (ha : ValidBox a) (hb : ValidBox b) :
    ∃ r, a.getIntersection b = .ok r ∧ (r.isSome ↔ ∃ p, Mem a p ∧ Mem b p) ∧
      ∀ i, r = some i → ValidBox i ∧ i.tolerance = a.tolerance ∧
        ∀ p, Mem i p ↔ (Mem a p ∧ Mem b p) := by
  by_cases h : a.isBoxIntersected b = true
  · refine ⟨_, getIntersection_ok a b ha hb h, ?_, ?_⟩
    · rw [← isBoxIntersected_iff a b ha hb, h]; simp
    · intro i hi
      have hi := Option.some.inj hi
      subst hi
      have h' := (isBoxIntersected_iff' a b).mp h
      refine ⟨⟨ha.1, fun i => max_le (le_min (ha.2 i) (h' i).2) (le_min (h' i).1 (hb.2 i))⟩, rfl, ?_⟩
      intro p
      unfold Mem
      simp only [max_le_iff, le_min_iff]
      constructor
      · intro hp; exact ⟨fun i => ⟨(hp i).1.1, (hp i).2.1⟩, fun i => ⟨(hp i).1.2, (hp i).2.2⟩⟩
      · rintro ⟨h1, h2⟩ i; exact ⟨⟨(h1 i).1, (h2 i).1⟩, (h1 i).2, (h2 i).2⟩
  · refine ⟨none, ?_, ?_, by simp⟩
    · unfold getIntersection; rw [if_neg h]; rfl
    · rw [← isBoxIntersected_iff a b ha hb]; simp [h]

/-- C06: for boxes with the same tolerance, also the tolerant `Contains` of the intersection is the
conjunction of those of the arguments. -/
theorem aabb_getIntersection_contains (a b i : AxisAlignedBox) (ha : ValidBox a) (hb : ValidBox b)
    (ht : a.tolerance = b.tolerance) (hi : a.getIntersection b = .ok (some i)) (p : Vec3) :
    i.contains p = true ↔ (a.contains p = true ∧ b.contains p = true) := by
  by_cases h : a.isBoxIntersected b = true
  · rw [getIntersection_ok a b ha hb h] at hi
    injection hi with hi; injection hi with hi; subst hi
    rw [AxisAlignedBox.contains_iff, AxisAlignedBox.contains_iff, AxisAlignedBox.contains_iff]
    unfold InBox
    simp only [Ext.max_add, Ext.min_add, max_le_iff, le_min_iff, ← ht]
    constructor
    · intro hp; exact ⟨fun i => ⟨(hp i).1.1, (hp i).2.1⟩, fun i => ⟨(hp i).1.2, (hp i).2.2⟩⟩
    · rintro ⟨h1, h2⟩ i; exact ⟨⟨(h1 i).1, (h2 i).1⟩, (h1 i).2, (h2 i).2⟩
  · unfold getIntersection at hi; rw [if_neg h] at hi; cases hi

/-- Boxes used below: the unit cube, a shifted cube, a small cube and the whole space. -/
def cube (lo hi t : ℚ) : AxisAlignedBox := ⟨fun _ => Ext.fin lo, fun _ => Ext.fin hi, t⟩

/-- All the outcomes occur. -/
example : (cube 0 2 0).overlaps (cube 1 3 0) = .intersected ∧ (cube 0 2 0).overlaps (cube 1 2 0) = .contained ∧
    (cube 0 2 0).overlaps (cube 3 4 0) = .disjointed ∧ ValidBox (cube 0 2 0) ∧ ValidBox (cube 1 3 0) ∧
    ValidBox ⟨fun _ => Ext.negInf, fun _ => Ext.posInf, 1⟩ := by
  refine ⟨by decide +kernel, by decide +kernel, by decide +kernel, ⟨le_refl _, ?_⟩, ⟨le_refl _, ?_⟩, ⟨by norm_num, ?_⟩⟩
  · intro i; exact Ext.fin_le.mpr (by norm_num)
  · intro i; exact Ext.fin_le.mpr (by norm_num)
  · intro i; exact Ext.negInf_le _

example : ∃ i, (cube 0 2 1).getIntersection (cube 1 3 1) = .ok (some i) ∧ (cube 0 2 1).tolerance = (cube 1 3 1).tolerance :=
  ⟨_, getIntersection_ok _ _ ⟨by norm_num [cube], fun _ => Ext.fin_le.mpr (by norm_num)⟩
    ⟨by norm_num [cube], fun _ => Ext.fin_le.mpr (by norm_num)⟩ (by decide +kernel), rfl⟩

end Maliput.Props
