import Mathlib.Algebra.Order.Floor.Semiring
import Mathlib.Tactic.Positivity
import Verif.Lemmas.RoadMesh

set_option autoImplicit false

/-! Lemmas about the loops that make the faces of a lane. -/
namespace Maliput.RoadMesh

open Maliput.RoadMesh.Spec
open Maliput.RouteGraph (Stop)

/-- A loop over strips of a lane. -/
theorem outer_loop {L δ : ℚ} (loop : ℕ → ℕ → ℚ → Except Stop (List SrhFace))
    (Q : ℚ → ℚ → List SrhFace → Prop) (hend : ∀ b n, loop b (n + 1) L = .ok [])
    (hstep : ∀ s0, 0 ≤ s0 → s0 < L → ∃ s1 fs N, s0 < s1 ∧ s1 ≤ L ∧ (s0 + δ ≤ s1 ∨ s1 = L) ∧ Q s0 s1 fs ∧
      ∀ b ≥ N, ∀ n r, loop b n s1 = .ok r → loop b (n + 1) s0 = .ok (fs ++ r)) :
    ∀ (k : ℕ) (s0 : ℚ), 0 ≤ s0 → s0 ≤ L → L - s0 ≤ δ * k → ∃ l fss N, (s0 :: l).getLast? = some L ∧
      (s0 :: l).Pairwise (· < ·) ∧ List.Forall₂ (fun p fs => Q p.1 p.2 fs) (strips (s0 :: l)) fss ∧
      ∀ b ≥ N, ∀ n ≥ N, loop b n s0 = .ok fss.flatten := by
  have base : ∃ l fss N, (L :: l).getLast? = some L ∧
      (L :: l).Pairwise (· < ·) ∧ List.Forall₂ (fun p fs => Q p.1 p.2 fs) (strips (L :: l)) fss ∧
      ∀ b ≥ N, ∀ n ≥ N, loop b n L = .ok fss.flatten := by
    refine ⟨[], [], 1, rfl, by simp, by simp [strips], fun b _ n hn => ?_⟩
    obtain ⟨n, rfl⟩ : ∃ m, n = m + 1 := ⟨n - 1, by omega⟩
    exact hend b n
  have step : ∀ s0, 0 ≤ s0 → s0 < L → (∀ s1, s0 < s1 → s1 ≤ L → (s0 + δ ≤ s1 ∨ s1 = L) →
      ∃ l fss N, (s1 :: l).getLast? = some L ∧
      (s1 :: l).Pairwise (· < ·) ∧ List.Forall₂ (fun p fs => Q p.1 p.2 fs) (strips (s1 :: l)) fss ∧
      ∀ b ≥ N, ∀ n ≥ N, loop b n s1 = .ok fss.flatten) →
      ∃ l fss N, (s0 :: l).getLast? = some L ∧
      (s0 :: l).Pairwise (· < ·) ∧ List.Forall₂ (fun p fs => Q p.1 p.2 fs) (strips (s0 :: l)) fss ∧
      ∀ b ≥ N, ∀ n ≥ N, loop b n s0 = .ok fss.flatten := by
    intro s0 h0 h1 ih
    obtain ⟨s1, fs, N, hs, hL, hd, hQ, hrun⟩ := hstep s0 h0 h1
    obtain ⟨l, fss, M, i1, i2, i3, i4⟩ := ih s1 hs hL hd
    refine ⟨s1 :: l, fs :: fss, max N M + 1, by simpa using i1, ?_, ?_, ?_⟩
    · refine List.pairwise_cons.2 ⟨?_, i2⟩
      intro x hx
      rcases List.mem_cons.1 hx with rfl | hx
      · exact hs
      · exact hs.trans ((List.pairwise_cons.1 i2).1 x hx)
    · exact .cons hQ i3
    · intro b hb n hn
      obtain ⟨n, rfl⟩ : ∃ m, n = m + 1 := ⟨n - 1, by omega⟩
      exact hrun b (by omega) n _ (i4 b (by omega) n (by omega))
  intro k
  induction k with
  | zero =>
    intro s0 h0 h1 h2
    obtain rfl : s0 = L := by simp at h2; linarith
    exact base
  | succ k ih =>
    intro s0 h0 h1 h2
    rcases eq_or_lt_of_le h1 with rfl | h1
    · exact base
    · refine step s0 h0 h1 fun s1 a b c => ?_
      rcases c with c | rfl
      · exact ih s1 (h0.trans a.le) b (by push_cast at h2; linarith)
      · exact base

/-- A loop over the strips of a whole lane. -/
theorem outer_loop_all {L δ : ℚ} (hδ : 0 < δ) (hL : 0 ≤ L) (loop : ℕ → ℕ → ℚ → Except Stop (List SrhFace))
    (Q : ℚ → ℚ → List SrhFace → Prop) (hend : ∀ b n, loop b (n + 1) L = .ok [])
    (hstep : ∀ s0, 0 ≤ s0 → s0 < L → ∃ s1 fs N, s0 < s1 ∧ s1 ≤ L ∧ (s0 + δ ≤ s1 ∨ s1 = L) ∧ Q s0 s1 fs ∧
      ∀ b ≥ N, ∀ n r, loop b n s1 = .ok r → loop b (n + 1) s0 = .ok (fs ++ r)) :
    ∃ l fss N, Stations L l ∧ List.Forall₂ (fun p fs => Q p.1 p.2 fs) (strips l) fss ∧
      ∀ n ≥ N, loop n n 0 = .ok fss.flatten := by
  obtain ⟨l, fss, N, h1, h2, h3, h4⟩ := outer_loop loop Q hend hstep ⌈L / δ⌉₊ 0 le_rfl hL (by
    have := Nat.le_ceil (L / δ)
    rw [div_le_iff₀ hδ] at this
    linarith)
  exact ⟨0 :: l, fss, N, ⟨rfl, h1, h2⟩, h3, fun n hn => h4 n hn n hn⟩

/-! ### ComputeSampleStep -/

/-- The tolerance is not violated. -/
theorem not_tooFar (dist : Pos → Pos → ℚ) (l : Lane) (s0 g step : ℚ) :
    tooFar dist l s0 g step = false ↔ StraightEnough dist l g s0 step := by
  simp [tooFar, StraightEnough, and_assoc]

/-- The loop that finds a step. -/
theorem sampleStepLoop_ok (dist : Pos → Pos → ℚ) (l : Lane) {s0 g : ℚ} (h0 : 0 ≤ s0) (hg : 0 < g) :
    ∀ (k : ℕ) (best : ℚ), 0 < best → min g (l.length - s0) ≤ best → best ≤ l.length - s0 →
      l.length - s0 ≤ best * (k + 1) →
      GoodStep dist l g s0 best → ∃ st, (∀ n ≥ k + 1, sampleStepLoop dist l s0 g n best = .ok st) ∧
        min g (l.length - s0) ≤ min st (l.length - s0) ∧ GoodStep dist l g s0 (min st (l.length - s0)) := by
  have last : ∀ best, 0 < best → min g (l.length - s0) ≤ best → best ≤ l.length - s0 → GoodStep dist l g s0 best →
      l.length - s0 ≤ best * 2 → ∃ st, (∀ n ≥ 1, sampleStepLoop dist l s0 g n best = .ok st) ∧
        min g (l.length - s0) ≤ min st (l.length - s0) ∧ GoodStep dist l g s0 (min st (l.length - s0)) := by
    intro best hb hmin hle hgood hlast
    have hprop : min (best * 2) (l.length - s0) = l.length - s0 := min_eq_right hlast
    rcases ht : tooFar dist l s0 g (l.length - s0) with _ | _
    · refine ⟨max (min 0 (l.length - s0)) l.length, fun n hn => ?_, ?_⟩
      · obtain ⟨n, rfl⟩ : ∃ m, n = m + 1 := ⟨n - 1, by omega⟩
        simp [sampleStepLoop, hprop, ht, hg]
      · have : min (max (min 0 (l.length - s0)) l.length) (l.length - s0) = l.length - s0 :=
          min_eq_right (by linarith [le_max_right (min 0 (l.length - s0)) l.length])
        rw [this]
        exact ⟨min_le_right _ _, .inr (.inl ((not_tooFar _ _ _ _ _).1 ht))⟩
    · refine ⟨best, fun n hn => ?_, ?_⟩
      · obtain ⟨n, rfl⟩ : ∃ m, n = m + 1 := ⟨n - 1, by omega⟩
        simp [sampleStepLoop, hprop, ht]
      · rw [min_eq_left hle]; exact ⟨hmin, hgood⟩
  intro k
  induction k with
  | zero =>
    intro best hb hmin hle hk hgood
    simp only [Nat.cast_zero, zero_add, mul_one] at hk
    obtain ⟨st, a, b⟩ := last best hb hmin hle hgood (by linarith)
    exact ⟨st, fun n hn => a n (by omega), b⟩
  | succ k ih =>
    intro best hb hmin hle hk hgood
    rcases le_total (l.length - s0) (best * 2) with h | h
    · obtain ⟨st, a, b⟩ := last best hb hmin hle hgood h
      exact ⟨st, fun n hn => a n (by omega), b⟩
    have hprop : min (best * 2) (l.length - s0) = best * 2 := min_eq_left h
    rcases ht : tooFar dist l s0 g (best * 2) with _ | _
    · have hse := (not_tooFar _ _ _ _ _).1 ht
      by_cases hend : |s0 + best * 2 - l.length| < g
      · refine ⟨max (min 0 (best * 2)) l.length, fun n hn => ?_, ?_⟩
        · obtain ⟨n, rfl⟩ : ∃ m, n = m + 1 := ⟨n - 1, by omega⟩
          simp [sampleStepLoop, hprop, ht, hend]
        · have : min (max (min 0 (best * 2)) l.length) (l.length - s0) = l.length - s0 :=
            min_eq_right (by linarith [le_max_right (min 0 (best * 2)) l.length])
          rw [this]
          refine ⟨min_le_right _ _, .inr (.inr ⟨rfl, best * 2, by linarith, h, ?_, hse⟩)⟩
          have := (abs_lt.1 hend).1
          linarith
      · obtain ⟨st, a, b⟩ := ih (best * 2) (by linarith) (by linarith) h (by
          push_cast at hk
          have : (0 : ℚ) ≤ k := Nat.cast_nonneg k
          nlinarith) (.inr (.inl hse))
        refine ⟨st, fun n hn => ?_, b⟩
        obtain ⟨n, rfl⟩ : ∃ m, n = m + 1 := ⟨n - 1, by omega⟩
        simp [sampleStepLoop, hprop, ht, hend, a n (by omega)]
    · refine ⟨best, fun n hn => ?_, ?_⟩
      · obtain ⟨n, rfl⟩ : ∃ m, n = m + 1 := ⟨n - 1, by omega⟩
        simp [sampleStepLoop, hprop, ht]
      · rw [min_eq_left hle]; exact ⟨hmin, hgood⟩

/-- A step is found. -/
theorem sampleStep_ok (dist : Pos → Pos → ℚ) (l : Lane) {s0 g : ℚ} (h0 : 0 ≤ s0) (hs : s0 < l.length) (hg : 0 < g) :
    ∃ st N, (∀ n ≥ N, sampleStep dist n l s0 g = .ok st) ∧ min g (l.length - s0) ≤ st ∧ st ≤ l.length - s0 ∧
      GoodStep dist l g s0 st := by
  have hr : 0 < l.length - s0 := by linarith
  obtain ⟨st, a, b, c⟩ := sampleStepLoop_ok dist l h0 hg ⌈(l.length - s0) / g⌉₊ (min g (l.length - s0)) (by
    exact lt_min hg hr) le_rfl (min_le_right _ _) (by
    rcases le_total g (l.length - s0) with h | h
    · rw [min_eq_left h]
      have := Nat.le_ceil ((l.length - s0) / g)
      rw [div_le_iff₀ hg] at this
      linarith
    · rw [min_eq_right h]
      have : (0 : ℚ) ≤ (⌈(l.length - s0) / g⌉₊ : ℚ) := Nat.cast_nonneg _
      nlinarith) (.inl rfl)
  refine ⟨min st (l.length - s0), ⌈(l.length - s0) / g⌉₊ + 1, fun n hn => ?_, b, min_le_right _ _, c⟩
  simp [sampleStep, a n hn, bind, Except.bind, pure, Except.pure]

/-! ### The sides of a strip -/

/-- The faces of the left side. -/
theorem leftLoop_ok (e : ℚ → ℚ → ℚ) {g s0 s1 max0 max1 : ℚ} (hg : 0 < g) (hs : s0 < s1) :
    ∀ (k : ℕ) (r : ℚ), min max0 max1 - r ≤ g * k → 0 ≤ r → ∃ fs, (∀ n ≥ k + 1, leftLoop e g s0 s1 max0 max1 n r r = .ok fs) ∧
      (∀ f ∈ fs, StrictlyCounterclockwise f ∧ f.normal = up ∧ ∀ v ∈ f.vertices, v.h = e v.s v.r ∧ 0 ≤ v.r ∧
        (v.s = s0 ∧ v.r ≤ max0 ∨ v.s = s1 ∧ v.r ≤ max1)) ∧
      (min max0 max1 ≤ r → fs = []) ∧
      (r < min max0 max1 → covered fs = Strip s0 s1 r r (min max0 (r + g * ⌈(min max0 max1 - r) / g⌉))
        (min max1 (r + g * ⌈(min max0 max1 - r) / g⌉))) := by
  have stop : ∀ r, min max0 max1 ≤ r → ∀ n ≥ 1, leftLoop e g s0 s1 max0 max1 n r r = .ok [] := by
    intro r h n hn
    obtain ⟨n, rfl⟩ : ∃ m, n = m + 1 := ⟨n - 1, by omega⟩
    have : ¬ (r < max0 ∧ r < max1) := by rw [← lt_min_iff]; exact not_lt.2 h
    simp [leftLoop, this, pure, Except.pure]
  intro k
  induction k with
  | zero =>
    intro r hk hr
    simp only [Nat.cast_zero, mul_zero, sub_nonpos] at hk
    exact ⟨[], fun n hn => stop r hk n hn, by simp, fun _ => rfl, fun h => absurd h (not_lt.2 hk)⟩
  | succ k ih =>
    intro r hk hr
    rcases le_or_gt (min max0 max1) r with h | h
    · exact ⟨[], fun n hn => stop r h n (by omega), by simp, fun _ => rfl, fun h' => absurd h' (not_lt.2 h)⟩
    obtain ⟨fs, a, b, c, d⟩ := ih (r + g) (by push_cast at hk; linarith) (by linarith)
    have h0 := (lt_min_iff.1 h).1
    have h1 := (lt_min_iff.1 h).2
    have g0 : r < min (r + g) max0 := lt_min (by linarith) h0
    have g1 : r < min (r + g) max1 := lt_min (by linarith) h1
    refine ⟨⟨[vertex e s0 r, vertex e s1 r, vertex e s1 (min (r + g) max1), vertex e s0 (min (r + g) max0)], up⟩ :: fs,
      fun n hn => ?_, ?_, fun h' => absurd h (not_lt.2 h'), fun _ => ?_⟩
    · obtain ⟨n, rfl⟩ : ∃ m, n = m + 1 := ⟨n - 1, by omega⟩
      simp only [leftLoop, h0, h1, and_self, if_true, a n (by omega), bind, Except.bind, pure, Except.pure]
    · intro f hf
      rcases List.mem_cons.1 hf with rfl | hf
      · refine ⟨strict4 ?_ ?_ ?_ ?_, rfl, ?_⟩
        · simp only [turn, vertex]
          have := mul_pos (sub_pos.2 hs) (sub_pos.2 g1)
          linarith
        · simp only [turn, vertex]
          have := mul_pos (sub_pos.2 hs) (sub_pos.2 g1)
          linarith
        · simp only [turn, vertex]
          have := mul_pos (sub_pos.2 hs) (sub_pos.2 g0)
          linarith
        · simp only [turn, vertex]
          have := mul_pos (sub_pos.2 hs) (sub_pos.2 g0)
          linarith
        · intro v hv
          simp only [List.mem_cons, List.not_mem_nil, or_false] at hv
          rcases hv with rfl | rfl | rfl | rfl <;> refine ⟨rfl, ?_, ?_⟩ <;> dsimp only [vertex]
          · exact hr
          · exact .inl ⟨rfl, h0.le⟩
          · exact hr
          · exact .inr ⟨rfl, h1.le⟩
          · exact hr.trans g1.le
          · exact .inr ⟨rfl, min_le_right _ _⟩
          · exact hr.trans g0.le
          · exact .inl ⟨rfl, min_le_right _ _⟩
      · exact b f hf
    · rw [covered_cons, area_strip (s0 := s0) (s1 := s1) (lo0 := r) (lo1 := r) g0.le g1.le _ (by
        intro p; simp [vertex]; tauto)]
      have hc : g * ((⌈(min max0 max1 - r) / g⌉ : ℤ) : ℚ) = g + g * ⌈(min max0 max1 - (r + g)) / g⌉ := by
        have : (min max0 max1 - r) / g = (min max0 max1 - (r + g)) / g + 1 := by field_simp; ring
        rw [this, Int.ceil_add_one]; push_cast; ring
      rcases le_or_gt (min max0 max1) (r + g) with h' | h'
      · have hceil : g * ((⌈(min max0 max1 - r) / g⌉ : ℤ) : ℚ) = g := by
          have : ⌈(min max0 max1 - r) / g⌉ = 1 := by
            rw [Int.ceil_eq_iff]
            constructor
            · simp; exact div_pos (by linarith) hg
            · rw [div_le_iff₀ hg]; push_cast; linarith
          rw [this]; simp
        rw [c h', covered_nil, Set.union_empty, hceil, min_comm max0, min_comm max1]
      · rw [d h', hc]
        have m0 : r + g < max0 := (lt_min_iff.1 h').1
        have m1 : r + g < max1 := (lt_min_iff.1 h').2
        have hpos : 0 ≤ g * ((⌈(min max0 max1 - (r + g)) / g⌉ : ℤ) : ℚ) := by
          apply mul_nonneg hg.le
          exact_mod_cast Int.ceil_nonneg (div_nonneg (by linarith) hg.le)
        rw [min_eq_left m0.le, min_eq_left m1.le, ← add_assoc]
        exact strip_union (by linarith) (by linarith) (le_min m0.le (by linarith)) (le_min m1.le (by linarith))

/-- The faces of the right side. -/
theorem rightLoop_ok (e : ℚ → ℚ → ℚ) {g s0 s1 min0 min1 : ℚ} (hg : 0 < g) (hs : s0 < s1) :
    ∀ (k : ℕ) (r : ℚ), min (-min0) (-min1) - r ≤ g * k → 0 ≤ r →
      ∃ fs, (∀ n ≥ k + 1, rightLoop e g s0 s1 min0 min1 n (-r) (-r) = .ok fs) ∧
      (∀ f ∈ fs, StrictlyCounterclockwise f ∧ f.normal = up ∧ ∀ v ∈ f.vertices, v.h = e v.s v.r ∧ v.r ≤ 0 ∧
        (v.s = s0 ∧ min0 ≤ v.r ∨ v.s = s1 ∧ min1 ≤ v.r)) ∧
      (min (-min0) (-min1) ≤ r → fs = []) ∧
      (r < min (-min0) (-min1) → covered fs =
        Strip s0 s1 (-min (-min0) (r + g * ⌈(min (-min0) (-min1) - r) / g⌉))
          (-min (-min1) (r + g * ⌈(min (-min0) (-min1) - r) / g⌉)) (-r) (-r)) := by
  have stop : ∀ r, min (-min0) (-min1) ≤ r → ∀ n ≥ 1, rightLoop e g s0 s1 min0 min1 n (-r) (-r) = .ok [] := by
    intro r h n hn
    obtain ⟨n, rfl⟩ : ∃ m, n = m + 1 := ⟨n - 1, by omega⟩
    have : ¬ (-r > min0 ∧ -r > min1) := by
      rintro ⟨a, b⟩
      exact absurd h (not_le.2 (lt_min (by linarith) (by linarith)))
    simp only [rightLoop, this, if_false, pure, Except.pure]
  intro k
  induction k with
  | zero =>
    intro r hk hr
    simp only [Nat.cast_zero, mul_zero, sub_nonpos] at hk
    exact ⟨[], fun n hn => stop r hk n hn, by simp, fun _ => rfl, fun h => absurd h (not_lt.2 hk)⟩
  | succ k ih =>
    intro r hk hr
    rcases le_or_gt (min (-min0) (-min1)) r with h | h
    · exact ⟨[], fun n hn => stop r h n (by omega), by simp, fun _ => rfl, fun h' => absurd h' (not_lt.2 h)⟩
    obtain ⟨fs, a, b, c, d⟩ := ih (r + g) (by push_cast at hk; linarith) (by linarith)
    have h0 : -r > min0 := by have := (lt_min_iff.1 h).1; linarith
    have h1 : -r > min1 := by have := (lt_min_iff.1 h).2; linarith
    have g0 : max (-r - g) min0 < -r := max_lt (by linarith) h0
    have g1 : max (-r - g) min1 < -r := max_lt (by linarith) h1
    refine ⟨⟨[vertex e s0 (-r), vertex e s0 (max (-r - g) min0), vertex e s1 (max (-r - g) min1), vertex e s1 (-r)], up⟩
      :: fs, fun n hn => ?_, ?_, fun h' => absurd h (not_lt.2 h'), fun _ => ?_⟩
    · obtain ⟨n, rfl⟩ : ∃ m, n = m + 1 := ⟨n - 1, by omega⟩
      have hr' : -r - g = -(r + g) := by ring
      have := a n (by omega)
      simp only [rightLoop, h0, h1, and_self, if_true, hr', this, bind, Except.bind, pure, Except.pure]
    · intro f hf
      rcases List.mem_cons.1 hf with rfl | hf
      · have p0 := mul_pos (sub_pos.2 hs) (sub_pos.2 g0)
        have p1 := mul_pos (sub_pos.2 hs) (sub_pos.2 g1)
        refine ⟨strict4 ?_ ?_ ?_ ?_, rfl, ?_⟩
        · simp only [turn, vertex]; linarith
        · simp only [turn, vertex]; linarith
        · simp only [turn, vertex]; linarith
        · simp only [turn, vertex]; linarith
        · intro v hv
          simp only [List.mem_cons, List.not_mem_nil, or_false] at hv
          rcases hv with rfl | rfl | rfl | rfl <;> refine ⟨rfl, ?_, ?_⟩ <;> dsimp only [vertex]
          · linarith
          · exact .inl ⟨rfl, h0.le⟩
          · linarith
          · exact .inl ⟨rfl, le_max_right _ _⟩
          · linarith
          · exact .inr ⟨rfl, le_max_right _ _⟩
          · linarith
          · exact .inr ⟨rfl, h1.le⟩
      · exact b f hf
    · rw [covered_cons, area_strip (s0 := s0) (s1 := s1) (hi0 := -r) (hi1 := -r) g0.le g1.le _ (by
        intro p; simp [vertex]; tauto)]
      have hc : g * ((⌈(min (-min0) (-min1) - r) / g⌉ : ℤ) : ℚ) = g + g * ⌈(min (-min0) (-min1) - (r + g)) / g⌉ := by
        have : (min (-min0) (-min1) - r) / g = (min (-min0) (-min1) - (r + g)) / g + 1 := by field_simp; ring
        rw [this, Int.ceil_add_one]; push_cast; ring
      have neg : ∀ m x : ℚ, -min (-m) x = max (-x) m := by
        intro m x; rw [← max_neg_neg, neg_neg, max_comm]
      rcases le_or_gt (min (-min0) (-min1)) (r + g) with h' | h'
      · have hceil : g * ((⌈(min (-min0) (-min1) - r) / g⌉ : ℤ) : ℚ) = g := by
          have : ⌈(min (-min0) (-min1) - r) / g⌉ = 1 := by
            rw [Int.ceil_eq_iff]
            constructor
            · simp only [Int.cast_one, sub_self]; exact div_pos (by linarith) hg
            · rw [div_le_iff₀ hg]; push_cast; linarith
          rw [this]; simp
        rw [c h', covered_nil, Set.union_empty, hceil, neg, neg, neg_add']
      · rw [d h', hc]
        have m0 : r + g < -min0 := (lt_min_iff.1 h').1
        have m1 : r + g < -min1 := (lt_min_iff.1 h').2
        have hpos : 0 ≤ g * ((⌈(min (-min0) (-min1) - (r + g)) / g⌉ : ℤ) : ℚ) := by
          apply mul_nonneg hg.le
          exact_mod_cast Int.ceil_nonneg (div_nonneg (by linarith) hg.le)
        have e0 : max (-r - g) min0 = -(r + g) := by rw [max_eq_left (by linarith)]; ring
        have e1 : max (-r - g) min1 = -(r + g) := by rw [max_eq_left (by linarith)]; ring
        rw [e0, e1, ← add_assoc, Set.union_comm]
        refine strip_union ?_ ?_ (by linarith) (by linarith) <;> apply neg_le_neg <;> apply le_min <;> linarith

/-! ### Strips -/

/-- The end of a strip. -/
theorem nextStation_ok {g tol L s0 : ℚ} (hg : 0 < g) (ht : 0 ≤ tol) (hs : s0 < L) :
    s0 < nextStation g tol L s0 ∧ nextStation g tol L s0 ≤ L ∧
    (nextStation g tol L s0 - s0 = g ∨ nextStation g tol L s0 = L ∧ L - s0 < g + tol) := by
  unfold nextStation
  simp only
  split
  · next h => exact ⟨hs, le_rfl, .inr ⟨rfl, by linarith⟩⟩
  · next h => exact ⟨by linarith, by linarith, .inl (by ring)⟩

/-- The bounds of a lane. -/
theorem bounds_min (l : Lane) (seg : Bool) (s : ℚ) :
    (bounds l seg s).min = if seg then (l.segmentBounds s).min else (l.laneBounds s).min := by
  unfold bounds; split <;> rfl

/-- The bounds of a lane. -/
theorem bounds_max (l : Lane) (seg : Bool) (s : ℚ) :
    (bounds l seg s).max = if seg then (l.segmentBounds s).max else (l.laneBounds s).max := by
  unfold bounds; split <;> rfl

/-- A vertex within the bounds. -/
theorem onLane_of {l : Lane} {seg : Bool} {e : ℚ → ℚ → ℚ} {v : Srh} (h0 : 0 ≤ v.s) (h1 : v.s ≤ l.length)
    (h2 : (bounds l seg v.s).min ≤ v.r) (h3 : v.r ≤ (bounds l seg v.s).max) (h4 : v.h = e v.s v.r) :
    OnLane l seg e v := by
  rw [bounds_min] at h2
  rw [bounds_max] at h3
  exact ⟨h0, h1, h2, h3, h4⟩

/-- Both sides of a strip. -/
theorem sides_ok (l : Lane) (seg : Bool) (e : ℚ → ℚ → ℚ) {g s0 s1 : ℚ} (hg : 0 < g) (h0 : 0 ≤ s0) (hs : s0 < s1)
    (h1 : s1 ≤ l.length) :
    ∃ left right N,
      (∀ n ≥ N, leftLoop e g s0 s1 (bounds l seg s0).max (bounds l seg s1).max n 0 0 = .ok left) ∧
      (∀ n ≥ N, rightLoop e g s0 s1 (bounds l seg s0).min (bounds l seg s1).min n 0 0 = .ok right) ∧
      covered (left ++ right) =
        LeftSide g s0 s1 (bounds l seg s0) (bounds l seg s1) ∪ RightSide g s0 s1 (bounds l seg s0) (bounds l seg s1) ∧
      ∀ f ∈ left ++ right, StrictlyCounterclockwise f ∧ f.normal = up ∧ ∀ v ∈ f.vertices, OnLane l seg e v := by
  obtain ⟨left, a1, a2, a3, a4⟩ := leftLoop_ok e (max0 := (bounds l seg s0).max) (max1 := (bounds l seg s1).max) hg hs
    ⌈min (bounds l seg s0).max (bounds l seg s1).max / g⌉₊ 0 (by
      have := Nat.le_ceil (min (bounds l seg s0).max (bounds l seg s1).max / g)
      rw [div_le_iff₀ hg] at this
      linarith) le_rfl
  obtain ⟨right, b1, b2, b3, b4⟩ := rightLoop_ok e (min0 := (bounds l seg s0).min) (min1 := (bounds l seg s1).min) hg hs
    ⌈min (-(bounds l seg s0).min) (-(bounds l seg s1).min) / g⌉₊ 0 (by
      have := Nat.le_ceil (min (-(bounds l seg s0).min) (-(bounds l seg s1).min) / g)
      rw [div_le_iff₀ hg] at this
      linarith) le_rfl
  simp only [neg_zero, zero_add, sub_zero] at a4 b1 b4
  refine ⟨left, right, _, fun n hn => a1 n (le_trans (le_max_left _ _) hn), fun n hn => b1 n (le_trans (le_max_right _ _) hn),
    ?_, ?_⟩
  · rw [covered_append]
    congr 1
    · rcases le_or_gt (min (bounds l seg s0).max (bounds l seg s1).max) 0 with h | h
      · rw [a3 h, covered_nil]
        ext p
        simp only [LeftSide, Set.mem_ofPred_eq, Set.mem_empty_iff_false, false_iff]
        exact fun hp => absurd hp.1 (not_lt.2 h)
      · rw [a4 h]
        ext p
        simp only [LeftSide, reach, Set.mem_ofPred_eq]
        exact ⟨fun hp => ⟨h, hp⟩, fun hp => hp.2⟩
    · rcases le_or_gt (min (-(bounds l seg s0).min) (-(bounds l seg s1).min)) 0 with h | h
      · rw [b3 h, covered_nil]
        ext p
        simp only [RightSide, Set.mem_ofPred_eq, Set.mem_empty_iff_false, false_iff]
        rintro ⟨hp, -⟩
        have := lt_min (neg_pos.2 (max_lt_iff.1 hp).1) (neg_pos.2 (max_lt_iff.1 hp).2)
        exact absurd this (not_lt.2 h)
      · rw [b4 h]
        ext p
        simp only [RightSide, reach, Set.mem_ofPred_eq]
        refine ⟨fun hp => ⟨?_, hp⟩, fun hp => hp.2⟩
        exact max_lt (neg_pos.1 (lt_min_iff.1 h).1) (neg_pos.1 (lt_min_iff.1 h).2)
  · intro f hf
    rcases List.mem_append.1 hf with hf | hf
    · obtain ⟨c1, c2, c3⟩ := a2 f hf
      refine ⟨c1, c2, fun v hv => ?_⟩
      obtain ⟨d1, d2, d3⟩ := c3 v hv
      rcases d3 with ⟨d3, d4⟩ | ⟨d3, d4⟩
      · exact onLane_of (by rw [d3]; exact h0) (by rw [d3]; linarith) ((bounds l seg v.s).min_le.trans d2)
          (by rw [d3]; exact d4) d1
      · exact onLane_of (by rw [d3]; linarith) (by rw [d3]; exact h1) ((bounds l seg v.s).min_le.trans d2)
          (by rw [d3]; exact d4) d1
    · obtain ⟨c1, c2, c3⟩ := b2 f hf
      refine ⟨c1, c2, fun v hv => ?_⟩
      obtain ⟨d1, d2, d3⟩ := c3 v hv
      rcases d3 with ⟨d3, d4⟩ | ⟨d3, d4⟩
      · exact onLane_of (by rw [d3]; exact h0) (by rw [d3]; linarith) (by rw [d3]; exact d4)
          (d2.trans (bounds l seg v.s).le_max) d1
      · exact onLane_of (by rw [d3]; linarith) (by rw [d3]; exact h1) (by rw [d3]; exact d4)
          (d2.trans (bounds l seg v.s).le_max) d1

end Maliput.RoadMesh
