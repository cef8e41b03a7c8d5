import Mathlib.Data.List.Sort
import Mathlib.Data.List.Perm.Basic
import Mathlib.Algebra.BigOperators.Fin
import Mathlib.Algebra.Order.BigOperators.Group.Finset
import Verif.Lemmas.AxisAlignedBox
import Verif.Spec.KdTree

set_option autoImplicit false

namespace Maliput.KdTree
open Maliput.Spec

variable {d : ℕ} [NeZero d] {P : Type} {coord : P → Fin d → ℚ}

/-- Elements of a tree in the order node, left, right. -/
def Tree.elems {d : ℕ} {P : Type} : Tree d P → List P
  | .nil => []
  | .node p _ l r => p :: (l.elems ++ r.elems)

/-- The kd order: the splitting dimension cycles and separates the children. -/
def Tree.Ordered (coord : P → Fin d → ℚ) : Fin d → Tree d P → Prop
  | _, .nil => True
  | i, .node p j l r => j = i ∧ (∀ x ∈ l.elems, coord x i ≤ coord p i) ∧ (∀ x ∈ r.elems, coord p i ≤ coord x i) ∧
      Tree.Ordered coord (i + 1) l ∧ Tree.Ordered coord (i + 1) r

theorem makeKdTree_spec (nth : NthElement coord) : ∀ n l i, l.length ≤ n →
    ((makeKdTree nth n l i).elems.Perm l ∧ (makeKdTree nth n l i).Ordered coord i) := by
  intro n
  induction n with
  | zero =>
    intro l i h
    have : l = [] := List.length_eq_zero_iff.mp (Nat.le_zero.mp h)
    subst this
    exact ⟨List.Perm.refl _, trivial⟩
  | succ n ih =>
    intro l i h
    rw [makeKdTree]
    by_cases hl : 0 < l.length
    · rw [dif_pos hl]
      have hk : l.length / 2 < l.length := Nat.div_lt_self hl (by decide)
      have hp := nth.perm i l _ hk
      have hb := nth.before i l _ hk
      have hc := nth.after i l _ hk
      have hlen := hp.length_eq
      rw [List.length_append, List.length_cons] at hlen
      obtain ⟨pl, ol⟩ := ih (nth.run i l _ hk).1 (i + 1) (by omega)
      obtain ⟨pr, or⟩ := ih (nth.run i l _ hk).2.2 (i + 1) (by omega)
      refine ⟨?_, rfl, ?_, ?_, ol, or⟩
      · rw [Tree.elems]
        refine List.Perm.trans (List.Perm.cons _ (List.Perm.append pl pr)) ?_
        exact List.Perm.trans List.perm_middle.symm hp
      · intro x hx; exact not_lt.mp (hb x (pl.mem_iff.mp hx))
      · intro x hx; exact not_lt.mp (hc x (pr.mem_iff.mp hx))
    · rw [dif_neg hl]
      have : l = [] := List.length_eq_zero_iff.mp (by omega)
      subst this
      exact ⟨List.Perm.refl _, trivial⟩

theorem squaredDistance_eq {d : ℕ} (a b : Fin d → ℚ) : squaredDistance a b = sqDist a b := by
  unfold squaredDistance sqDist
  have : ∀ (l : List (Fin d)) (acc : ℚ), l.foldl (fun dist i => dist + (a i - b i) * (a i - b i)) acc
      = acc + (l.map fun i => (a i - b i) ^ 2).sum := by
    intro l
    induction l with
    | nil => intro acc; simp
    | cons x xs ih => intro acc; rw [List.foldl_cons, ih, List.map_cons, List.sum_cons]; ring
  rw [this, zero_add, ← List.ofFn_eq_map, List.sum_ofFn]

theorem sqDist_ge {d : ℕ} (a b : Fin d → ℚ) (i : Fin d) : (a i - b i) ^ 2 ≤ sqDist a b := by
  unfold sqDist
  exact Finset.single_le_sum (f := fun i => (a i - b i) ^ 2) (fun j _ => sq_nonneg _) (Finset.mem_univ i)

/-- The answer of the recursive search started with a best candidate. -/
theorem nearestRec_some (coord : P → Fin d → ℚ) (q : Fin d → ℚ) (tol : ℚ) (t : Tree d P) :
    ∀ i b, t.Ordered coord i → b.2 = sqDist (coord b.1) q →
      ∃ b', nearestRec coord q tol t i (some b) = some b' ∧ b'.2 = sqDist (coord b'.1) q ∧
        (b'.1 = b.1 ∨ b'.1 ∈ t.elems) ∧ b'.2 ≤ b.2 ∧
        (b'.2 < tol ∨ ∀ x ∈ t.elems, b'.2 ≤ sqDist (coord x) q) := by
  induction t with
  | nil => intro i b _ hb; exact ⟨b, rfl, hb, Or.inl rfl, le_refl _, Or.inr (by simp [Tree.elems])⟩
  | node p j l r ihl ihr =>
    intro i b ho hb
    obtain ⟨-, hl, hr, ol, or⟩ := ho
    rw [nearestRec]
    simp only [squaredDistance_eq]
    -- the candidate after looking at this node
    obtain ⟨c, hc⟩ : ∃ c, c = (if sqDist (coord p) q < b.2 then (p, sqDist (coord p) q) else b) := ⟨_, rfl⟩
    rw [← hc]
    have c1 : c.2 = sqDist (coord c.1) q := by rw [hc]; split <;> [rfl; exact hb]
    have c2 : c.1 = b.1 ∨ c.1 = p := by rw [hc]; split <;> simp
    have c3 : c.2 ≤ b.2 := by rw [hc]; split <;> [exact le_of_lt ‹_›; exact le_refl _]
    have c4 : c.2 ≤ sqDist (coord p) q := by rw [hc]; split <;> [exact le_refl _; exact not_lt.mp ‹_›]
    have cmem : c.1 = b.1 ∨ c.1 ∈ (Tree.node p j l r).elems := by
      rcases c2 with h | h
      · exact Or.inl h
      · right; rw [h]; simp [Tree.elems]
    by_cases ht : c.2 < tol
    · rw [if_pos ht]; exact ⟨c, rfl, c1, cmem, c3, Or.inl ht⟩
    · rw [if_neg ht]
      -- one child first, then possibly the other
      have main : ∀ (A B : Tree d P),
          (∀ i b, A.Ordered coord i → b.2 = sqDist (coord b.1) q →
            ∃ b', nearestRec coord q tol A i (some b) = some b' ∧ b'.2 = sqDist (coord b'.1) q ∧
              (b'.1 = b.1 ∨ b'.1 ∈ A.elems) ∧ b'.2 ≤ b.2 ∧
              (b'.2 < tol ∨ ∀ x ∈ A.elems, b'.2 ≤ sqDist (coord x) q)) →
          (∀ i b, B.Ordered coord i → b.2 = sqDist (coord b.1) q →
            ∃ b', nearestRec coord q tol B i (some b) = some b' ∧ b'.2 = sqDist (coord b'.1) q ∧
              (b'.1 = b.1 ∨ b'.1 ∈ B.elems) ∧ b'.2 ≤ b.2 ∧
              (b'.2 < tol ∨ ∀ x ∈ B.elems, b'.2 ≤ sqDist (coord x) q)) →
          A.Ordered coord (i + 1) → B.Ordered coord (i + 1) →
          (∀ x ∈ B.elems, (coord p i - q i) ^ 2 ≤ (coord x i - q i) ^ 2) →
          ∃ b', (match nearestRec coord q tol A (i + 1) (some c) with
              | none => none
              | some b => if (coord p i - q i) * (coord p i - q i) ≥ b.2 then some b
                else nearestRec coord q tol B (i + 1) (some b)) = some b' ∧
            b'.2 = sqDist (coord b'.1) q ∧ (b'.1 = c.1 ∨ b'.1 ∈ A.elems ∨ b'.1 ∈ B.elems) ∧ b'.2 ≤ c.2 ∧
            (b'.2 < tol ∨ ∀ x, x ∈ A.elems ∨ x ∈ B.elems → b'.2 ≤ sqDist (coord x) q) := by
        intro A B iA iB oA oB hB
        obtain ⟨e, he, e1, e2, e3, e4⟩ := iA (i + 1) c oA c1
        rw [he]
        simp only
        by_cases hd : (coord p i - q i) * (coord p i - q i) ≥ e.2
        · rw [if_pos hd]
          refine ⟨e, rfl, e1, ?_, e3, ?_⟩
          · rcases e2 with h | h
            · exact Or.inl h
            · exact Or.inr (Or.inl h)
          · rcases e4 with h | h
            · exact Or.inl h
            · right
              rintro x (hx | hx)
              · exact h x hx
              · have h1 := hB x hx
                have h2 := sqDist_ge (coord x) q i
                nlinarith
        · rw [if_neg hd]
          obtain ⟨f, hf, f1, f2, f3, f4⟩ := iB (i + 1) e oB e1
          refine ⟨f, hf, f1, ?_, le_trans f3 e3, ?_⟩
          · rcases f2 with h | h
            · rcases e2 with h' | h'
              · exact Or.inl (h.trans h')
              · exact Or.inr (Or.inl (h ▸ h'))
            · exact Or.inr (Or.inr h)
          · rcases f4 with h | h
            · exact Or.inl h
            · rcases e4 with h' | h'
              · exact Or.inl (lt_of_le_of_lt f3 h')
              · right
                rintro x (hx | hx)
                · exact le_trans f3 (h' x hx)
                · exact h x hx
      by_cases hdx : coord p i - q i > 0
      · simp only [if_pos hdx]
        obtain ⟨b', h1, h2, h3, h4, h5⟩ := main l r ihl ihr ol or (by
          intro x hx
          have := hr x hx
          nlinarith)
        refine ⟨b', h1, h2, ?_, le_trans h4 c3, ?_⟩
        · rw [Tree.elems]
          simp only [List.mem_cons, List.mem_append]
          rcases h3 with h | h | h
          · rcases c2 with h' | h'
            · exact Or.inl (h.trans h')
            · exact Or.inr (Or.inl (h.trans h'))
          · exact Or.inr (Or.inr (Or.inl h))
          · exact Or.inr (Or.inr (Or.inr h))
        · rcases h5 with h | h
          · exact Or.inl h
          · right
            intro x hx
            rw [Tree.elems, List.mem_cons, List.mem_append] at hx
            rcases hx with rfl | hx
            · exact le_trans h4 c4
            · exact h x hx
      · simp only [if_neg hdx]
        obtain ⟨b', h1, h2, h3, h4, h5⟩ := main r l ihr ihl or ol (by
          intro x hx
          have := hl x hx
          have := not_lt.mp hdx
          nlinarith)
        refine ⟨b', h1, h2, ?_, le_trans h4 c3, ?_⟩
        · rw [Tree.elems]
          simp only [List.mem_cons, List.mem_append]
          rcases h3 with h | h | h
          · rcases c2 with h' | h'
            · exact Or.inl (h.trans h')
            · exact Or.inr (Or.inl (h.trans h'))
          · exact Or.inr (Or.inr (Or.inr h))
          · exact Or.inr (Or.inr (Or.inl h))
        · rcases h5 with h | h
          · exact Or.inl h
          · right
            intro x hx
            rw [Tree.elems, List.mem_cons, List.mem_append] at hx
            rcases hx with rfl | hx
            · exact le_trans h4 c4
            · exact h x hx.symm

/-- Starting without a candidate is the same as starting with the root as the candidate. -/
theorem nearestRec_none (coord : P → Fin d → ℚ) (q : Fin d → ℚ) (tol : ℚ) (p : P) (j : Fin d)
    (l r : Tree d P) (i : Fin d) :
    nearestRec coord q tol (.node p j l r) i none =
      nearestRec coord q tol (.node p j l r) i (some (p, squaredDistance (coord p) q)) := by
  rw [nearestRec, nearestRec]
  simp only [lt_irrefl, if_false]

/-! ### Regions -/

variable {coord3 : P → Fin 3 → ℚ}

/-- Elements of a tree with regions. -/
def RTree.elems {P : Type} : RTree P → List P
  | .nil => []
  | .node p _ l r => p :: (l.elems ++ r.elems)

/-- Every element is in the region of every node above it. -/
def RTree.Good (coord : P → Fin 3 → ℚ) : RTree P → Prop
  | .nil => True
  | .node p b l r => ValidBox b ∧ (∀ x ∈ (RTree.node p b l r).elems, Mem b (vec coord x)) ∧ l.Good coord ∧ r.Good coord

theorem report_eq {P : Type} (t : RTree P) : report t = t.elems := by
  induction t with
  | nil => rfl
  | node p b l r hl hr => rw [report, RTree.elems, hl, hr]

theorem kTolerance_nonneg : 0 ≤ AxisAlignedBox.kTolerance := by
  unfold AxisAlignedBox.kTolerance; norm_num

theorem initialize3dRegions_spec (coord : P → Fin 3 → ℚ) (t : Tree 3 P) :
    ∀ (left : Bool) (pr : AxisAlignedBox) (pi : Fin 3) (p : P) (i : Fin 3),
      t.Ordered coord i → ValidBox pr → Mem pr (vec coord p) →
      (∀ x ∈ t.elems, Mem pr (vec coord x) ∧
        (if left then coord x pi ≤ coord p pi else coord p pi ≤ coord x pi)) →
      ∃ rt, initialize3dRegions coord left pr pi p t = .ok rt ∧ rt.elems = t.elems ∧ rt.Good coord := by
  induction t with
  | nil => intro left pr pi p i _ _ _ _; exact ⟨.nil, rfl, rfl, trivial⟩
  | node v j l r ihl ihr =>
    intro left pr pi p i ho hpr hp hx
    obtain ⟨rfl, hl, hr, ol, or⟩ := ho
    rw [initialize3dRegions]
    obtain ⟨mn, hmn⟩ : ∃ mn : Vec3, mn = (if left then fun _ => Ext.negInf
      else Function.update (fun _ => Ext.negInf) pi (Ext.fin (coord p pi))) := ⟨_, rfl⟩
    obtain ⟨mx, hmx⟩ : ∃ mx : Vec3, mx = (if left then
        Function.update (fun _ => Ext.posInf) pi (Ext.fin (coord p pi)) else fun _ => Ext.posInf) := ⟨_, rfl⟩
    simp only [← hmn, ← hmx]
    -- membership in the half space
    have half : ∀ x : Vec3, (if left then x pi ≤ Ext.fin (coord p pi) else Ext.fin (coord p pi) ≤ x pi) →
        ∀ k, mn k ≤ x k ∧ x k ≤ mx k := by
      intro x h k
      rw [hmn, hmx]
      cases left with
      | true =>
        simp only [if_true] at h ⊢
        refine ⟨Ext.negInf_le _, ?_⟩
        by_cases hk : k = pi
        · subst hk; rwa [Function.update_self]
        · rw [Function.update_of_ne hk]; exact Ext.le_posInf _
      | false =>
        simp only [Bool.false_eq_true, if_false] at h ⊢
        refine ⟨?_, Ext.le_posInf _⟩
        by_cases hk : k = pi
        · subst hk; rwa [Function.update_self]
        · rw [Function.update_of_ne hk]; exact Ext.negInf_le _
    have hpin := half (vec coord p) (by cases left <;> simp [vec])
    have hmake : AxisAlignedBox.makeDefault mn mx = .ok ⟨mn, mx, AxisAlignedBox.kTolerance⟩ :=
      AxisAlignedBox.make_ok kTolerance_nonneg (fun k => le_trans (hpin k).1 (hpin k).2)
    have hvalid : ValidBox ⟨mn, mx, AxisAlignedBox.kTolerance⟩ :=
      ⟨kTolerance_nonneg, fun k => le_trans (hpin k).1 (hpin k).2⟩
    have hinter : pr.isBoxIntersected ⟨mn, mx, AxisAlignedBox.kTolerance⟩ = true :=
      (AxisAlignedBox.isBoxIntersected_iff _ _ hpr hvalid).mpr ⟨vec coord p, hp, hpin⟩
    rw [hmake]
    simp only [bind, Except.bind]
    rw [AxisAlignedBox.getIntersection_ok _ _ hpr hvalid hinter]
    simp only
    obtain ⟨reg, hreg⟩ : ∃ reg : AxisAlignedBox, reg = ⟨fun i => max (pr.minCorner i) (mn i),
      fun i => min (pr.maxCorner i) (mx i), pr.tolerance⟩ := ⟨_, rfl⟩
    rw [← hreg]
    have hmem : ∀ x ∈ (Tree.node v j l r).elems, Mem reg (vec coord x) := by
      intro x hxe k
      have h1 := (hx x hxe).1 k
      have h2 := half (vec coord x) (by
        have := (hx x hxe).2
        cases left with
        | true => simp only [if_true] at this ⊢; exact Ext.fin_le.mpr this
        | false => simp only [Bool.false_eq_true, if_false] at this ⊢; exact Ext.fin_le.mpr this) k
      rw [hreg]
      exact ⟨max_le h1.1 h2.1, le_min h1.2 h2.2⟩
    have hvreg : ValidBox reg := by
      refine ⟨by rw [hreg]; exact hpr.1, fun k => ?_⟩
      have := hmem v (by simp [Tree.elems]) k
      exact le_trans this.1 this.2
    have hv := hmem v (by simp [Tree.elems])
    obtain ⟨l', hl', el, gl⟩ := ihl true reg j v (j + 1) ol hvreg hv (fun x hxl =>
      ⟨hmem x (by simp [Tree.elems, hxl]), by simpa using hl x hxl⟩)
    obtain ⟨r', hr', er, gr⟩ := ihr false reg j v (j + 1) or hvreg hv (fun x hxl =>
      ⟨hmem x (by simp [Tree.elems, hxl]), by simpa using hr x hxl⟩)
    rw [hl', hr']
    have he : (RTree.node v reg l' r').elems = (Tree.node v j l r).elems := by
      rw [RTree.elems, Tree.elems, el, er]
    refine ⟨_, rfl, he, hvreg, ?_, gl, gr⟩
    rw [he]; exact hmem

theorem make3d_spec {coord : P → Fin 3 → ℚ} (nth : NthElement coord) (points : List P) (h : points ≠ []) :
    ∃ rt, make3d nth points = .ok rt ∧ rt.elems.Perm points ∧ rt.Good coord := by
  unfold make3d make
  have hne : (!points.isEmpty) = true := by simpa using h
  rw [hne]
  obtain ⟨hp, ho⟩ := makeKdTree_spec nth points.length points 0 le_rfl
  show ∃ rt, initializeRegions coord (makeKdTree nth points.length points 0) = .ok rt ∧ _
  revert hp ho
  generalize makeKdTree nth points.length points 0 = t
  intro hp ho
  cases t with
  | nil => exact absurd (List.nil_perm.mp hp) h
  | node p j l r =>
    obtain ⟨rfl, hl, hr, ol, or⟩ := ho
    rw [initializeRegions]
    have hmake : AxisAlignedBox.makeDefault (fun _ => Ext.negInf) (fun _ => Ext.posInf)
        = .ok ⟨fun _ => Ext.negInf, fun _ => Ext.posInf, AxisAlignedBox.kTolerance⟩ :=
      AxisAlignedBox.make_ok kTolerance_nonneg (fun k => Ext.negInf_le _)
    rw [hmake]
    simp only [bind, Except.bind]
    have hv : ValidBox ⟨fun _ => Ext.negInf, fun _ => Ext.posInf, AxisAlignedBox.kTolerance⟩ :=
      ⟨kTolerance_nonneg, fun k => Ext.negInf_le _⟩
    have hm : ∀ x : Vec3, Mem ⟨fun _ => Ext.negInf, fun _ => Ext.posInf, AxisAlignedBox.kTolerance⟩ x :=
      fun x k => ⟨Ext.negInf_le _, Ext.le_posInf _⟩
    obtain ⟨l', hl', el, gl⟩ := initialize3dRegions_spec coord l true _ 0 p _ ol hv (hm _)
      (fun x hx => ⟨hm _, by simpa using hl x hx⟩)
    obtain ⟨r', hr', er, gr⟩ := initialize3dRegions_spec coord r false _ 0 p _ or hv (hm _)
      (fun x hx => ⟨hm _, by simpa using hr x hx⟩)
    rw [hl', hr']
    refine ⟨_, rfl, ?_, hv, fun x _ => hm _, gl, gr⟩
    rw [RTree.elems, el, er]
    exact hp

theorem rangeSearch_spec (coord : P → Fin 3 → ℚ) (box : AxisAlignedBox) (hb : ValidBox box) (t : RTree P) :
    t.Good coord → ∃ rest, (rangeSearch coord box t ++ rest).Perm t.elems ∧
      (∀ x ∈ rangeSearch coord box t, InBox box box.tolerance (vec coord x)) ∧
      (∀ x ∈ rest, ¬ Mem box (vec coord x)) := by
  have memTol : ∀ x, Mem box x → InBox box box.tolerance x := fun x hx k =>
    ⟨le_trans (Ext.add_le (by linarith [hb.1])) (hx k).1, le_trans (hx k).2 (Ext.le_add hb.1)⟩
  induction t with
  | nil => intro _; exact ⟨[], List.Perm.refl _, by simp [rangeSearch], by simp⟩
  | node p reg l r ihl ihr =>
    intro hg
    obtain ⟨hv, hm, gl, gr⟩ := hg
    obtain ⟨restl, pl, inl, outl⟩ := ihl gl
    obtain ⟨restr, pr, inr, outr⟩ := ihr gr
    -- the report of the element of the node
    have self : ∃ restp, ((if box.contains (vec coord p) then [p] else []) ++ restp).Perm [p] ∧
        (∀ x ∈ (if box.contains (vec coord p) then [p] else []), InBox box box.tolerance (vec coord x)) ∧
        (∀ x ∈ restp, ¬ Mem box (vec coord x)) := by
      by_cases hc : box.contains (vec coord p) = true
      · rw [if_pos hc]
        refine ⟨[], List.Perm.refl _, ?_, by simp⟩
        intro x hx; rw [List.mem_singleton] at hx; subst hx
        exact (AxisAlignedBox.contains_iff _ _).mp hc
      · rw [if_neg hc]
        refine ⟨[p], List.Perm.refl _, by simp, ?_⟩
        intro x hx; rw [List.mem_singleton] at hx; subst hx
        intro hmem
        exact hc ((AxisAlignedBox.contains_iff _ _).mpr (memTol _ hmem))
    have cases3 : ∃ rest, ((match box.overlaps reg with
        | .contained => report (.node p reg l r)
        | .intersected => (if box.contains (vec coord p) then [p] else []) ++
            (rangeSearch coord box l ++ rangeSearch coord box r)
        | .disjointed => []) ++ rest).Perm (RTree.node p reg l r).elems ∧
        (∀ x ∈ (match box.overlaps reg with
          | .contained => report (.node p reg l r)
          | .intersected => (if box.contains (vec coord p) then [p] else []) ++
              (rangeSearch coord box l ++ rangeSearch coord box r)
          | .disjointed => []), InBox box box.tolerance (vec coord x)) ∧
        (∀ x ∈ rest, ¬ Mem box (vec coord x)) := by
      unfold AxisAlignedBox.overlaps
      by_cases hi : box.isBoxIntersected reg = true
      · rw [if_pos hi]
        by_cases hc : box.isBoxContained reg = true
        · rw [if_pos hc]
          refine ⟨[], ?_, ?_, by simp⟩
          · simp only [report_eq, List.append_nil]; exact List.Perm.refl _
          · simp only [report_eq]
            intro x hx
            exact (AxisAlignedBox.isBoxContained_iff _ _ hv).mp hc _ (hm x hx)
        · rw [if_neg hc]
          simp only
          obtain ⟨restp, pp, inp, outp⟩ := self
          refine ⟨restp ++ (restl ++ restr), ?_, ?_, ?_⟩
          · rw [RTree.elems]
            have h1 : ((if box.contains (vec coord p) then [p] else []) ++
                (rangeSearch coord box l ++ rangeSearch coord box r) ++ (restp ++ (restl ++ restr))).Perm
                (((if box.contains (vec coord p) then [p] else []) ++ restp) ++
                  ((rangeSearch coord box l ++ restl) ++ (rangeSearch coord box r ++ restr))) := by
              generalize (if box.contains (vec coord p) then [p] else []) = A
              generalize rangeSearch coord box l = B
              generalize rangeSearch coord box r = C
              classical
              rw [List.perm_iff_count]
              intro a
              simp only [List.count_append]
              omega
            exact h1.trans (List.Perm.append pp (List.Perm.append pl pr))
          · intro x hx
            rcases List.mem_append.mp hx with hx | hx
            · exact inp x hx
            · rcases List.mem_append.mp hx with hx | hx
              · exact inl x hx
              · exact inr x hx
          · intro x hx
            rcases List.mem_append.mp hx with hx | hx
            · exact outp x hx
            · rcases List.mem_append.mp hx with hx | hx
              · exact outl x hx
              · exact outr x hx
      · rw [if_neg hi]
        simp only
        refine ⟨(RTree.node p reg l r).elems, List.Perm.refl _, by simp, ?_⟩
        intro x hx hmem
        exact hi ((AxisAlignedBox.isBoxIntersected_iff _ _ hb hv).mpr ⟨_, hmem, hm x hx⟩)
    cases l with
    | nil =>
      cases r with
      | nil =>
        rw [rangeSearch]
        exact self
      | node _ _ _ _ => rw [rangeSearch]; exact cases3; simp
    | node _ _ _ _ => rw [rangeSearch]; exact cases3; simp

/-- A computable `nth_element`: sort and split. Shows that the contract can be met. -/
def sortNth {d : ℕ} {P : Type} (coord : P → Fin d → ℚ) : NthElement coord where
  run i l k h :=
    have hk : k < (l.insertionSort (fun a b => coord a i ≤ coord b i)).length := by
      rw [List.length_insertionSort]; exact h
    ((l.insertionSort (fun a b => coord a i ≤ coord b i)).take k,
     (l.insertionSort (fun a b => coord a i ≤ coord b i))[k],
     (l.insertionSort (fun a b => coord a i ≤ coord b i)).drop (k + 1))
  perm i l k h := by
    have hk : k < (l.insertionSort (fun a b => coord a i ≤ coord b i)).length := by
      rw [List.length_insertionSort]; exact h
    simp only
    rw [← List.drop_eq_getElem_cons hk, List.take_append_drop]
    exact List.perm_insertionSort _ l
  pos i l k h := by
    simp only [List.length_take, List.length_insertionSort]; omega
  before i l k h := by
    have hk : k < (l.insertionSort (fun a b => coord a i ≤ coord b i)).length := by
      rw [List.length_insertionSort]; exact h
    have : Std.Total (fun a b : P => coord a i ≤ coord b i) := ⟨fun a b => le_total _ _⟩
    have : IsTrans P (fun a b => coord a i ≤ coord b i) := ⟨fun a b c h h' => le_trans h h'⟩
    have hs := List.pairwise_insertionSort (fun a b => coord a i ≤ coord b i) l
    simp only
    intro x hx
    rw [not_lt]
    rw [← List.take_append_drop k (l.insertionSort (fun a b => coord a i ≤ coord b i)),
      List.pairwise_append] at hs
    apply hs.2.2 x hx
    rw [List.drop_eq_getElem_cons hk]
    exact List.mem_cons_self
  after i l k h := by
    have hk : k < (l.insertionSort (fun a b => coord a i ≤ coord b i)).length := by
      rw [List.length_insertionSort]; exact h
    have : Std.Total (fun a b : P => coord a i ≤ coord b i) := ⟨fun a b => le_total _ _⟩
    have : IsTrans P (fun a b => coord a i ≤ coord b i) := ⟨fun a b c h h' => le_trans h h'⟩
    have hs := List.pairwise_insertionSort (fun a b => coord a i ≤ coord b i) l
    simp only
    intro x hx
    rw [not_lt]
    rw [← List.take_append_drop k (l.insertionSort (fun a b => coord a i ≤ coord b i)),
      List.pairwise_append, List.drop_eq_getElem_cons hk] at hs
    exact (List.pairwise_cons.mp hs.2.1).1 x hx

end Maliput.KdTree
