import Mathlib.Tactic.Linarith
import Mathlib.Tactic.Ring
import Mathlib.Tactic.FieldSimp
import Mathlib.Tactic.Positivity
import Mathlib.Data.List.Basic
import Verif.Spec.Strategy
import Verif.Lemmas.Regions
import Verif.Props.KdTree

set_option autoImplicit false
namespace Maliput.Strategy
open Maliput Maliput.Spec

variable {L : Type}

theorem foldl_filter {α β : Type} (f : α → Bool) (h : α → β) (l : List α) (acc : List β) :
    l.foldl (fun acc a => if f a then acc ++ [h a] else acc) acc = acc ++ (l.filter f).map h := by
  induction l generalizing acc with
  | nil => simp
  | cons a l ih =>
    rw [List.foldl_cons, ih]
    by_cases e : f a <;> simp [e]

theorem foldl_flatten {α β : Type} (f : β → α → β) (l : List (List α)) (acc : β) :
    l.foldl (fun acc xs => xs.foldl f acc) acc = l.flatten.foldl f acc := by
  induction l generalizing acc with
  | nil => rfl
  | cons a l ih => rw [List.foldl_cons, ih, List.flatten_cons, List.foldl_append]

theorem within_eq (radius : WithTop ℚ) (d : ℚ) : within radius d = decide ((d : WithTop ℚ) ≤ radius) := by
  unfold within
  by_cases h : radius = ⊤
  · subst h; simp
  · simp [h]

theorem findRoadPositions_eq (g : Geometry L) (pos : Pos) (radius : WithTop ℚ)
    (h : ((0 : ℚ) : WithTop ℚ) ≤ radius) :
    findRoadPositions g pos radius =
      .ok (((allLanes g).filter fun l => decide ((laneDistance g pos l : WithTop ℚ) ≤ radius)).map (g.resultOn pos)) := by
  unfold findRoadPositions
  rw [decide_eq_true h, throwUnless_true]
  rw [foldl_flatten, foldl_flatten, foldl_filter, List.nil_append]
  simp only [within_eq]
  rfl

theorem kEps_pos : 0 < kEps := by unfold kEps; positivity

/-- What "closer" implies for the distances. -/
theorem isCloser_lt {g : Geometry L} {new cur : RoadPositionResult L} (h : isCloser g new cur = true) :
    new.distance < cur.distance + kEps := by
  have he := kEps_pos
  unfold isCloser at h
  dsimp only at h
  split at h
  · linarith
  · split at h
    · cases h
    · linarith

theorem not_isCloser_le {g : Geometry L} {new cur : RoadPositionResult L} (h : isCloser g new cur = false) :
    cur.distance ≤ new.distance + kEps := by
  have he := kEps_pos
  unfold isCloser at h
  dsimp only at h
  split at h
  · cases h
  · linarith

theorem isCloser_self (g : Geometry L) (x : RoadPositionResult L) : isCloser g x x = false := by
  have he := kEps_pos
  unfold isCloser
  simp only [sub_self]
  rw [if_neg (by linarith), if_neg (by linarith)]
  cases isWithinLaneBounds x.r (g.laneBounds x.lane x.s) <;> simp

/-- The fold returns one of the candidates. -/
theorem pick_mem (g : Geometry L) (rs : List (RoadPositionResult L)) (c : RoadPositionResult L) :
    pickClosest g rs c = c ∨ pickClosest g rs c ∈ rs := by
  induction rs generalizing c with
  | nil => exact Or.inl rfl
  | cons r rs ih =>
    unfold pickClosest at ih ⊢
    rw [List.foldl_cons]
    rcases ih (if isCloser g r c then r else c) with h | h
    · rw [h]
      split
      · exact Or.inr List.mem_cons_self
      · exact Or.inl rfl
    · exact Or.inr (List.mem_cons_of_mem _ h)

/-- Bound of the fold: each comparison can lose one threshold. -/
theorem pick_bound (g : Geometry L) (rs : List (RoadPositionResult L)) (c : RoadPositionResult L) :
    (pickClosest g rs c).distance ≤ c.distance + rs.length * kEps ∧
    ∀ x ∈ rs, (pickClosest g rs c).distance ≤ x.distance + rs.length * kEps := by
  have he := kEps_pos
  induction rs generalizing c with
  | nil => simp [pickClosest]
  | cons r rs ih =>
    have ih := ih (if isCloser g r c then r else c)
    unfold pickClosest at ih ⊢
    rw [List.foldl_cons]
    simp only [List.length_cons, Nat.cast_add, Nat.cast_one, List.mem_cons]
    generalize hn : (rs.length : ℚ) = n at *
    have hn0 : 0 ≤ n * kEps := by rw [← hn]; positivity
    have h1 : (if isCloser g r c then r else c).distance ≤ c.distance + kEps := by
      split
      · rename_i h; exact (isCloser_lt h).le
      · linarith
    have h2 : (if isCloser g r c then r else c).distance ≤ r.distance + kEps := by
      split
      · linarith
      · rename_i h; exact not_isCloser_le (by simpa using h)
    refine ⟨by linarith [ih.1], ?_⟩
    rintro x (rfl | hx)
    · linarith [ih.1]
    · linarith [ih.2 x hx]

theorem inLaneBounds_iff (g : Geometry L) (x : RoadPositionResult L) :
    isWithinLaneBounds x.r (g.laneBounds x.lane x.s) = true ↔ InLaneBounds g x := by
  unfold isWithinLaneBounds InLaneBounds
  rw [Bool.and_eq_true, decide_eq_true_iff, decide_eq_true_iff]

theorem atLeastAsGood_trans {g : Geometry L} {x y z : RoadPositionResult L} (h : AtLeastAsGood g x y)
    (h' : AtLeastAsGood g y z) : AtLeastAsGood g x z := by
  unfold AtLeastAsGood at *
  rcases h with h | ⟨h, h1⟩ <;> rcases h' with h' | ⟨h', h1'⟩
  · exact Or.inl (h.trans h')
  · exact Or.inl (h'.symm ▸ h)
  · exact Or.inl (by rw [h]; exact h')
  · refine Or.inr ⟨h.trans h', ?_⟩
    rcases h1 with ⟨a, b⟩ | ⟨a, b⟩ <;> rcases h1' with ⟨a', b'⟩ | ⟨a', b'⟩
    · exact Or.inl ⟨a, b'⟩
    · exact Or.inl ⟨a, fun hz => b (a'.mpr hz)⟩
    · exact Or.inl ⟨a.mpr a', b'⟩
    · exact Or.inr ⟨a.trans a', b.trans b'⟩

theorem atLeastAsGood_refl (g : Geometry L) (x : RoadPositionResult L) : AtLeastAsGood g x x :=
  Or.inr ⟨rfl, Or.inr ⟨Iff.rfl, le_refl _⟩⟩

/-- The two distances are equal or more than a threshold apart. -/
def Sep (x y : RoadPositionResult L) : Prop := x.distance = y.distance ∨ kEps < |x.distance - y.distance|

/-- For separated distances the comparison is the intended order. -/
theorem isCloser_good {g : Geometry L} {new cur : RoadPositionResult L} (hs : Sep new cur) :
    if isCloser g new cur then AtLeastAsGood g new cur else AtLeastAsGood g cur new := by
  have he := kEps_pos
  have hb := inLaneBounds_iff g
  rcases lt_trichotomy new.distance cur.distance with h | h | h
  · have hd : new.distance - cur.distance < -kEps := by
      rcases hs with hs | hs
      · linarith
      · rw [abs_of_neg (by linarith)] at hs; linarith
    have hc : isCloser g new cur = true := by unfold isCloser; dsimp only; rw [if_pos hd]
    rw [hc]
    exact Or.inl h
  · have h1 : ¬ new.distance - cur.distance < -kEps := by linarith
    have h2 : ¬ new.distance - cur.distance ≥ kEps := by linarith
    have hc : isCloser g new cur = (if ((isWithinLaneBounds new.r (g.laneBounds new.lane new.s) && isWithinLaneBounds cur.r (g.laneBounds cur.lane cur.s))
        || (!isWithinLaneBounds new.r (g.laneBounds new.lane new.s) && !isWithinLaneBounds cur.r (g.laneBounds cur.lane cur.s))) = true then
        (if |new.r| < |cur.r| then true else false) else
        if (isWithinLaneBounds new.r (g.laneBounds new.lane new.s) && !isWithinLaneBounds cur.r (g.laneBounds cur.lane cur.s)) = true then true else false) := by
      unfold isCloser; dsimp only; rw [if_neg h1, if_neg h2]
    rw [hc]
    have hn := hb new
    have hcu := hb cur
    unfold AtLeastAsGood
    cases h3 : isWithinLaneBounds new.r (g.laneBounds new.lane new.s) <;>
      cases h4 : isWithinLaneBounds cur.r (g.laneBounds cur.lane cur.s) <;>
      rw [h3] at hn <;> rw [h4] at hcu <;> simp only [← hn, ← hcu, h] <;>
      by_cases h5 : |new.r| < |cur.r| <;> simp [h5, le_of_lt, not_lt.mp]
  · have hd : new.distance - cur.distance ≥ kEps := by
      rcases hs with hs | hs
      · linarith
      · rw [abs_of_pos (by linarith)] at hs; linarith
    have hc : isCloser g new cur = false := by
      unfold isCloser; dsimp only; rw [if_neg (by linarith), if_pos hd]
    rw [hc]
    exact Or.inl h

theorem pick_good (g : Geometry L) (rs : List (RoadPositionResult L)) (c : RoadPositionResult L)
    (hs : ∀ x ∈ c :: rs, ∀ y ∈ c :: rs, Sep x y) : ∀ x ∈ c :: rs, AtLeastAsGood g (pickClosest g rs c) x := by
  induction rs generalizing c with
  | nil =>
    intro x hx
    rw [List.mem_singleton] at hx
    subst hx
    exact atLeastAsGood_refl g x
  | cons r rs ih =>
    have hrc := isCloser_good (g := g) (hs r (by simp) c (by simp))
    have hsub : ∀ x, x ∈ (if isCloser g r c then r else c) :: rs → x ∈ c :: r :: rs := by
      intro x hx
      rcases List.mem_cons.mp hx with rfl | hx
      · split <;> simp
      · simp [hx]
    have ih := ih (if isCloser g r c then r else c) (fun x hx y hy => hs x (hsub x hx) y (hsub y hy))
    have hp : pickClosest g (r :: rs) c = pickClosest g rs (if isCloser g r c then r else c) := rfl
    rw [hp]
    have h0 := ih _ List.mem_cons_self
    intro x hx
    rcases List.mem_cons.mp hx with rfl | hx
    · refine atLeastAsGood_trans h0 ?_
      split
      · rename_i e; rw [if_pos e] at hrc; exact hrc
      · exact atLeastAsGood_refl g _
    · rcases List.mem_cons.mp hx with rfl | hx
      · refine atLeastAsGood_trans h0 ?_
        split
        · exact atLeastAsGood_refl g _
        · rename_i e; rw [if_neg e] at hrc; exact hrc
      · exact ih x (List.mem_cons_of_mem _ hx)

/-! ### Samples -/

theorem mem_sampleLoop (step stop : ℚ) (n : ℕ) (x y : ℚ) (hs : 0 < step) :
    y ∈ sampleLoop step stop n x ↔ ∃ k : ℕ, k < n ∧ y = x + k * step ∧ y ≤ stop := by
  induction n generalizing x with
  | zero => simp [sampleLoop]
  | succ n ih =>
    unfold sampleLoop
    split
    · rename_i h
      rw [List.mem_cons, ih]
      constructor
      · rintro (rfl | ⟨k, hk, rfl, hle⟩)
        · exact ⟨0, by omega, by simp, h⟩
        · exact ⟨k + 1, by omega, by push_cast; ring, hle⟩
      · rintro ⟨k, hk, rfl, hle⟩
        cases k with
        | zero => left; simp
        | succ k => right; exact ⟨k, by omega, by push_cast; ring, hle⟩
    · rename_i h
      simp only [List.not_mem_nil, false_iff]
      rintro ⟨k, hk, rfl, hle⟩
      have : 0 ≤ (k : ℚ) * step := by positivity
      linarith

/-- The fuel suffices: the sampled values are `start`, `start + step`, … up to `stop`. -/
theorem mem_samples (start stop step y : ℚ) (hs : 0 < step) :
    y ∈ samples start stop step ↔ ∃ k : ℕ, y = start + k * step ∧ y ≤ stop := by
  unfold samples
  rw [mem_sampleLoop _ _ _ _ _ hs]
  constructor
  · rintro ⟨k, -, h⟩; exact ⟨k, h⟩
  · rintro ⟨k, rfl, h⟩
    refine ⟨k, ?_, rfl, h⟩
    rw [Nat.lt_succ_iff]
    apply Nat.le_floor
    rw [le_div_iff₀ hs]
    linarith

theorem mem_samplePoints (g : Geometry L) (lanes : List L) (step : ℚ) (hs : 0 < step) (p : MaliputPoint L) :
    p ∈ samplePoints g lanes step ↔ p.2 ∈ lanes ∧ ∃ j k : ℕ, (j : ℚ) * step ≤ g.length p.2 ∧
      (g.laneBounds p.2 (j * step)).1 + k * step ≤ (g.laneBounds p.2 (j * step)).2 ∧
      p.1 = g.toInertialPosition p.2 (j * step) ((g.laneBounds p.2 (j * step)).1 + k * step) := by
  unfold samplePoints
  simp only [List.mem_flatMap, List.mem_map, mem_samples _ _ _ _ hs, zero_add]
  constructor
  · rintro ⟨l, hl, s, ⟨j, rfl, hj⟩, r, ⟨k, rfl, hk⟩, rfl⟩
    exact ⟨hl, j, k, hj, hk, rfl⟩
  · rintro ⟨hl, j, k, hj, hk, hp⟩
    exact ⟨p.2, hl, _, ⟨j, rfl, hj⟩, _, ⟨k, rfl, hk⟩, by rw [← hp]⟩

/-! ### Kd-tree strategy -/

/-- The constructor succeeds if there is a sample point. -/
theorem kdMake_spec (nth : KdTree.NthElement (coordOf (L := L))) (g : Geometry L) (lanes : List L) (step : ℚ)
    (hne : samplePoints g lanes step ≠ []) :
    ∃ k, KdStrategy.make nth g lanes step = .ok k ∧ k.step = step ∧
      KdTree.make nth (samplePoints g lanes step) = .ok k.tree ∧
      KdTree.make3d nth (samplePoints g lanes step) = .ok k.rtree := by
  obtain ⟨t, -, h1, -, -⟩ := Props.kdTree_nearest nth _ hne (fun _ => 0) 1 (by norm_num)
  obtain ⟨rt, h2, -, -⟩ := KdTree.make3d_spec nth _ hne
  refine ⟨⟨t, rt, step⟩, ?_, rfl, h1, h2⟩
  unfold KdStrategy.make
  simp only [h1, h2]
  rfl

/-- `ClosestLanes`: lanes of sample points, and all those with a sample point in the box. -/
theorem closestLanes_spec (nth : KdTree.NthElement (coordOf (L := L))) (points : List (MaliputPoint L))
    (hne : points ≠ []) (k : KdStrategy L) (hk : KdTree.make3d nth points = .ok k.rtree) (pos : Pos)
    (halfEdge : WithTop ℚ) (h0 : ((0 : ℚ) : WithTop ℚ) ≤ halfEdge) :
    ∃ lanes, closestLanes k pos halfEdge = .ok lanes ∧ lanes.length ≤ points.length ∧
      (∀ l ∈ lanes, ∃ p ∈ points, p.2 = l) ∧
      (∀ p ∈ points, (∀ i, ((|p.1 i - pos i| : ℚ) : WithTop ℚ) ≤ halfEdge) → p.2 ∈ lanes) := by
  have key : ∀ box : AxisAlignedBox, ValidBox box → (∀ p ∈ points, (∀ i, ((|p.1 i - pos i| : ℚ) : WithTop ℚ) ≤ halfEdge) → Mem box (position coordOf p)) →
      let lanes := (KdTree.rangeSearch coordOf box k.rtree).map Prod.snd
      lanes.length ≤ points.length ∧ (∀ l ∈ lanes, ∃ p ∈ points, p.2 = l) ∧
      (∀ p ∈ points, (∀ i, ((|p.1 i - pos i| : ℚ) : WithTop ℚ) ≤ halfEdge) → p.2 ∈ lanes) := by
    intro box hb hm
    obtain ⟨t, rest, h1, h2, -, h4⟩ := Props.kdTree_rangeSearch nth points hne box hb
    rw [hk] at h1
    cases h1
    refine ⟨?_, ?_, ?_⟩
    · rw [List.length_map]
      have := h2.length_eq
      rw [List.length_append] at this
      omega
    · intro l hl
      rw [List.mem_map] at hl
      obtain ⟨p, hp, rfl⟩ := hl
      exact ⟨p, h2.subset (List.mem_append_left _ hp), rfl⟩
    · intro p hp hc
      rw [List.mem_map]
      refine ⟨p, ?_, rfl⟩
      rcases List.mem_append.mp (h2.symm.subset hp) with h | h
      · exact h
      · exact absurd (hm p hp hc) (h4 p h)
  cases halfEdge with
  | top =>
    have hok : closestLanes k pos ⊤ = .ok ((KdTree.rangeSearch coordOf ⟨fun _ => Ext.negInf, fun _ => Ext.posInf, AxisAlignedBox.kTolerance⟩ k.rtree).map Prod.snd) := by
      have h0 : AxisAlignedBox.kTolerance ≥ 0 := by norm_num [AxisAlignedBox.kTolerance]
      have hle : Ext.negInf ≤ Ext.posInf := bot_le
      unfold closestLanes AxisAlignedBox.makeDefault AxisAlignedBox.make
      simp only [decide_eq_true hle, decide_eq_true h0, throwUnless_true]
      rfl
    refine ⟨_, hok, key ⟨fun _ => Ext.negInf, fun _ => Ext.posInf, AxisAlignedBox.kTolerance⟩ ?_ ?_⟩
    · refine ⟨by norm_num [AxisAlignedBox.kTolerance], fun i => bot_le⟩
    · intro p _ _ i
      exact ⟨bot_le, WithBot.coe_le_coe.mpr le_top⟩
  | coe e =>
    have he : (0 : ℚ) ≤ e := WithTop.coe_le_coe.mp h0
    have hle : ∀ i, Ext.fin (pos i - e) ≤ Ext.fin (pos i + e) := fun i => Ext.fin_le.mpr (by linarith)
    have hok : closestLanes k pos (e : ℚ) = .ok ((KdTree.rangeSearch coordOf ⟨fun i => Ext.fin (pos i - e), fun i => Ext.fin (pos i + e), AxisAlignedBox.kTolerance⟩ k.rtree).map Prod.snd) := by
      have h0 : AxisAlignedBox.kTolerance ≥ 0 := by norm_num [AxisAlignedBox.kTolerance]
      unfold closestLanes AxisAlignedBox.makeDefault AxisAlignedBox.make
      simp only [decide_eq_true (hle _), decide_eq_true h0, throwUnless_true]
      rfl
    refine ⟨_, hok, key _ ?_ ?_⟩
    · refine ⟨by norm_num [AxisAlignedBox.kTolerance], hle⟩
    · intro p _ hc i
      have := abs_le.mp (WithTop.coe_le_coe.mp (hc i))
      exact ⟨Ext.fin_le.mpr (by simp only [coordOf]; linarith), Ext.fin_le.mpr (by simp only [coordOf]; linarith)⟩

end Maliput.Strategy
