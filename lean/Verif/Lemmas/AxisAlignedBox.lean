import Mathlib.Data.Fintype.Basic
import Mathlib.Tactic.Linarith
import Mathlib.Tactic.NormNum
import Mathlib.Tactic.Ring
import Mathlib.Tactic.FinCases
import Mathlib.Algebra.Order.Field.Rat
import Mathlib.Order.WithBot
import Mathlib.Data.Fin.VecNotation
import Verif.Lemmas.Regions
import Verif.Spec.AxisAlignedBox

set_option autoImplicit false

namespace Maliput
open Spec

theorem Ext.cases' (e : Ext) : e = Ext.negInf ∨ e = Ext.posInf ∨ ∃ q, e = Ext.fin q := by
  induction e using WithBot.recBotCoe with
  | bot => exact Or.inl rfl
  | coe e =>
    induction e using WithTop.recTopCoe with
    | top => exact Or.inr (Or.inl rfl)
    | coe q => exact Or.inr (Or.inr ⟨q, rfl⟩)

theorem Ext.fin_le {p q : ℚ} : Ext.fin p ≤ Ext.fin q ↔ p ≤ q := by
  unfold Ext.fin; rw [WithBot.coe_le_coe, WithTop.coe_le_coe]

theorem Ext.add_fin (p t : ℚ) : (Ext.fin p).add t = Ext.fin (p + t) := rfl
theorem Ext.add_negInf (t : ℚ) : Ext.negInf.add t = Ext.negInf := rfl
theorem Ext.add_posInf (t : ℚ) : Ext.posInf.add t = Ext.posInf := rfl
theorem Ext.negInf_le (e : Ext) : Ext.negInf ≤ e := bot_le
theorem Ext.le_posInf (e : Ext) : e ≤ Ext.posInf := by
  unfold Ext.posInf
  induction e using WithBot.recBotCoe with
  | bot => exact bot_le
  | coe e => rw [WithBot.coe_le_coe]; exact le_top

theorem Ext.add_mono {a b : Ext} (h : a ≤ b) (t : ℚ) : a.add t ≤ b.add t := by
  rcases Ext.cases' a with rfl | rfl | ⟨p, rfl⟩
  · exact bot_le
  · have : b = Ext.posInf := le_antisymm (Ext.le_posInf _) h
    subst this; exact le_refl _
  · rcases Ext.cases' b with rfl | rfl | ⟨q, rfl⟩
    · have := le_bot_iff.mp h; cases this
    · exact Ext.le_posInf _
    · rw [Ext.fin_le] at h; rw [Ext.add_fin, Ext.add_fin, Ext.fin_le]; linarith

theorem Ext.le_add {a : Ext} {t : ℚ} (ht : 0 ≤ t) : a ≤ a.add t := by
  rcases Ext.cases' a with rfl | rfl | ⟨p, rfl⟩
  · exact bot_le
  · exact le_refl _
  · rw [Ext.add_fin, Ext.fin_le]; linarith

theorem Ext.add_le {a : Ext} {t : ℚ} (ht : t ≤ 0) : a.add t ≤ a := by
  rcases Ext.cases' a with rfl | rfl | ⟨p, rfl⟩
  · exact bot_le
  · exact le_refl _
  · rw [Ext.add_fin, Ext.fin_le]; linarith

theorem Ext.add_zero (a : Ext) : a.add 0 = a := le_antisymm (Ext.add_le le_rfl) (Ext.le_add le_rfl)

theorem Ext.max_add (a b : Ext) (t : ℚ) : (max a b).add t = max (a.add t) (b.add t) := by
  rcases le_total a b with h | h
  · rw [max_eq_right h, max_eq_right (Ext.add_mono h t)]
  · rw [max_eq_left h, max_eq_left (Ext.add_mono h t)]

theorem Ext.min_add (a b : Ext) (t : ℚ) : (min a b).add t = min (a.add t) (b.add t) := by
  rcases le_total a b with h | h
  · rw [min_eq_left h, min_eq_left (Ext.add_mono h t)]
  · rw [min_eq_right h, min_eq_right (Ext.add_mono h t)]

theorem forall_fin3 {P : Fin 3 → Prop} : (∀ i, P i) ↔ P 0 ∧ P 1 ∧ P 2 := by
  constructor
  · intro h; exact ⟨h 0, h 1, h 2⟩
  · rintro ⟨h0, h1, h2⟩ i
    fin_cases i
    · exact h0
    · exact h1
    · exact h2

namespace AxisAlignedBox

theorem contains_iff (b : AxisAlignedBox) (p : Vec3) : b.contains p = true ↔ InBox b b.tolerance p := by
  unfold contains InBox
  rw [forall_fin3]
  simp only [Bool.and_eq_true, decide_eq_true_iff, ge_iff_le]
  tauto

theorem inBox_zero (b : AxisAlignedBox) (p : Vec3) : InBox b 0 p ↔ Mem b p := by
  unfold InBox Mem
  simp only [neg_zero, Ext.add_zero]

theorem isBoxIntersected_iff' (b o : AxisAlignedBox) :
    b.isBoxIntersected o = true ↔ ∀ i, o.minCorner i ≤ b.maxCorner i ∧ b.minCorner i ≤ o.maxCorner i := by
  unfold isBoxIntersected
  rw [forall_fin3]
  simp only [Bool.not_eq_true', Bool.or_eq_false_iff, decide_eq_false_iff_not, not_lt]
  tauto

theorem isBoxIntersected_iff (b o : AxisAlignedBox) (hb : ValidBox b) (ho : ValidBox o) :
    b.isBoxIntersected o = true ↔ ∃ p, Mem b p ∧ Mem o p := by
  rw [isBoxIntersected_iff']
  constructor
  · intro h
    refine ⟨fun i => max (b.minCorner i) (o.minCorner i), fun i => ⟨le_max_left _ _, max_le (hb.2 i) (h i).1⟩,
      fun i => ⟨le_max_right _ _, max_le (h i).2 (ho.2 i)⟩⟩
  · rintro ⟨p, h1, h2⟩ i
    exact ⟨le_trans (h2 i).1 (h1 i).2, le_trans (h1 i).1 (h2 i).2⟩

theorem isBoxContained_iff (b o : AxisAlignedBox) (ho : ValidBox o) :
    b.isBoxContained o = true ↔ ∀ p, Mem o p → InBox b b.tolerance p := by
  unfold isBoxContained
  rw [List.all_eq_true]
  constructor
  · intro h p hp i
    have h1 := (contains_iff b _).mp (h ![o.minCorner 0, o.minCorner 1, o.minCorner 2] (by simp [getVertices]))
    have h2 := (contains_iff b _).mp (h ![o.maxCorner 0, o.maxCorner 1, o.maxCorner 2] (by simp [getVertices]))
    have e1 : (![o.minCorner 0, o.minCorner 1, o.minCorner 2] : Vec3) i = o.minCorner i := by
      fin_cases i <;> rfl
    have e2 : (![o.maxCorner 0, o.maxCorner 1, o.maxCorner 2] : Vec3) i = o.maxCorner i := by
      fin_cases i <;> rfl
    exact ⟨le_trans (h1 i).1 (e1 ▸ (hp i).1), le_trans (e2 ▸ (hp i).2) (h2 i).2⟩
  · intro h v hv
    rw [contains_iff]
    apply h
    unfold Mem
    rw [forall_fin3]
    have h0 := ho.2 0
    have h1 := ho.2 1
    have h2 := ho.2 2
    simp only [getVertices, List.mem_cons, List.not_mem_nil, or_false] at hv
    rcases hv with rfl | rfl | rfl | rfl | rfl | rfl | rfl | rfl <;>
      simp [h0, h1, h2]

theorem make_ok {mn mx : Vec3} {t : ℚ} (ht : 0 ≤ t) (h : ∀ i, mn i ≤ mx i) :
    make mn mx t = .ok ⟨mn, mx, t⟩ := by
  unfold make
  have ht' : t ≥ 0 := ht
  rw [decide_eq_true ht', decide_eq_true (h 0), decide_eq_true (h 1), decide_eq_true (h 2)]
  rfl

theorem getIntersection_ok (b o : AxisAlignedBox) (hb : ValidBox b) (ho : ValidBox o)
    (h : b.isBoxIntersected o = true) :
    b.getIntersection o = .ok (some ⟨fun i => max (b.minCorner i) (o.minCorner i),
      fun i => min (b.maxCorner i) (o.maxCorner i), b.tolerance⟩) := by
  have h' := (isBoxIntersected_iff' b o).mp h
  unfold getIntersection
  rw [if_pos h]
  have e1 : (![max (b.minCorner 0) (o.minCorner 0), max (b.minCorner 1) (o.minCorner 1),
        max (b.minCorner 2) (o.minCorner 2)] : Vec3) = fun i => max (b.minCorner i) (o.minCorner i) := by
    funext i; fin_cases i <;> rfl
  have e2 : (![min (b.maxCorner 0) (o.maxCorner 0), min (b.maxCorner 1) (o.maxCorner 1),
        min (b.maxCorner 2) (o.maxCorner 2)] : Vec3) = fun i => min (b.maxCorner i) (o.maxCorner i) := by
    funext i; fin_cases i <;> rfl
  rw [e1, e2, make_ok hb.1]
  · rfl
  · intro i
    exact max_le (le_min (hb.2 i) (h' i).2) (le_min (h' i).1 (ho.2 i))

end AxisAlignedBox
end Maliput
