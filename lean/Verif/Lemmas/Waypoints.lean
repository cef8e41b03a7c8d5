import Mathlib.Algebra.Order.Archimedean.Basic
import Mathlib.Tactic.Linarith
import Mathlib.Tactic.Ring
import Mathlib.Tactic.FieldSimp
import Mathlib.Data.Rat.Floor
import Verif.Lemmas.Monad
import Verif.Spec.Waypoints

set_option autoImplicit false

/-! Lemmas about waypoints. -/
namespace Maliput.Waypoints

open Spec
open Maliput.RouteGraph (Stop lift)

variable {P : Type}

theorem foldl_length (rs : List LaneSRange) : ∀ a : ℚ, rs.foldl (fun acc x => acc + x.length) a = a + total rs := by
  induction rs with
  | nil => intro a; simp [total]
  | cons r rs ih =>
    intro a
    rw [List.foldl_cons, ih]
    simp only [total, List.map_cons, List.sum_cons, LaneSRange.length, SRange.size]
    ring

theorem length_eq (route : LaneSRoute) : route.length = total route.ranges := by
  rw [LaneSRoute.length, foldl_length, zero_add]

theorem sampleRange_of_count (rate s1 : ℚ) : ∀ (m : Nat) (step : ℚ) (n : Nat), m < n →
    (∀ i < m, step + i * rate ≤ s1) → s1 < step + m * rate →
    sampleRange rate s1 n step = .ok ((List.range m).map (fun i : Nat => step + i * rate), step + m * rate) := by
  intro m
  induction m with
  | zero =>
    intro step n hn _ h
    obtain ⟨n, rfl⟩ : ∃ k, n = k + 1 := ⟨n - 1, by omega⟩
    have : ¬ step ≤ s1 := by simpa using h
    rw [sampleRange, if_neg this]
    simp [pure, Except.pure]
  | succ m ih =>
    intro step n hn h1 h2
    obtain ⟨n, rfl⟩ : ∃ k, n = k + 1 := ⟨n - 1, by omega⟩
    have : step ≤ s1 := by simpa using h1 0 (by omega)
    rw [sampleRange, if_pos this, ih (step + rate) n (by omega)]
    · simp only [bind, Except.bind, pure, Except.pure, List.range_succ_eq_map, List.map_cons, List.map_map]
      congr 2
      · congr 1
        · simp
        · apply List.map_congr_left
          intro i _
          simp only [Function.comp, Nat.cast_succ]
          ring
      · push_cast
        ring
    · intro i hi
      have := h1 (i + 1) (by omega)
      push_cast at this
      linarith
    · push_cast at h2
      linarith

/-- With a positive step the number of samples of a range is determined. -/
theorem exists_count {rate : ℚ} (hr : 0 < rate) (s1 step : ℚ) : ∃ m : Nat, (∀ i < m, step + i * rate ≤ s1) ∧
    s1 < step + m * rate := by
  have hex : ∃ m : Nat, s1 < step + m * rate := by
    obtain ⟨m, hm⟩ := exists_nat_gt ((s1 - step) / rate)
    refine ⟨m, ?_⟩
    rw [div_lt_iff₀ hr] at hm
    linarith
  classical
  exact ⟨Nat.find hex, fun i hi => not_lt.1 (Nat.find_min hex hi), Nat.find_spec hex⟩

/-- Forward ranges: the samples continue those before. -/
theorem sampleRanges_forward (g : RoadGeometry P) {rate : ℚ} (hr : 0 < rate) : ∀ (rs : List LaneSRange) (previous : ℚ),
    Forward rs → (∀ r ∈ rs, g.hasLane r.laneId = true) → -rate < previous → previous ≤ 0 →
    ∃ (N m : Nat) (ps : List P), (∀ bound, N ≤ bound →
        sampleRanges g rate bound rs previous = .ok (ps, previous + m * rate - total rs)) ∧
      -rate < previous + m * rate - total rs ∧ previous + m * rate - total rs ≤ 0 ∧
      List.Forall₂ (fun x p => ∃ lane s, At rs x lane s ∧ p = g.toInertial lane (s, 0, 0))
        ((List.range m).map fun i : Nat => previous + (i + 1) * rate) ps := by
  intro rs
  induction rs with
  | nil =>
    intro previous _ _ h1 h2
    exact ⟨0, 0, [], by simp [sampleRanges, total], by simpa [total] using h1, by simpa [total] using h2, by simp⟩
  | cons r rs ih =>
    intro previous hf hl h1 h2
    have hr0 : r.sRange.s0 ≤ r.sRange.s1 := hf r List.mem_cons_self
    have habs : |r.sRange.s1 - r.sRange.s0| = r.sRange.s1 - r.sRange.s0 := abs_of_nonneg (by linarith)
    obtain ⟨m, hm1, hm2⟩ := exists_count hr r.sRange.s1 (previous + r.sRange.s0 + rate)
    have hprev : previous + r.sRange.s0 + rate + m * rate - r.sRange.s1 - rate ≤ 0 := by
      rcases Nat.eq_zero_or_pos m with rfl | hm
      · simp only [Nat.cast_zero]; linarith
      · have := hm1 (m - 1) (by omega)
        have hc : ((m - 1 : ℕ) : ℚ) = m - 1 := by
          rw [Nat.cast_sub (by omega)]; simp
        rw [hc] at this
        linarith
    obtain ⟨N, m', ps, h3, h4, h5, h6⟩ := ih (previous + r.sRange.s0 + rate + m * rate - r.sRange.s1 - rate)
      (fun x hx => hf x (List.mem_cons_of_mem _ hx)) (fun x hx => hl x (List.mem_cons_of_mem _ hx)) (by linarith) hprev
    have htot : total (r :: rs) = (r.sRange.s1 - r.sRange.s0) + total rs := by
      simp [total, habs]
    have heq : previous + r.sRange.s0 + rate + m * rate - r.sRange.s1 - rate + m' * rate - total rs =
        previous + ((m + m' : ℕ) : ℚ) * rate - total (r :: rs) := by
      rw [htot]; push_cast; ring
    rw [heq] at h4 h5
    refine ⟨max N (m + 1), m + m', ((List.range m).map fun i : Nat => previous + r.sRange.s0 + rate + i * rate).map
      (fun s => g.toInertial r.laneId (s, 0, 0)) ++ ps, ?_, h4, h5, ?_⟩
    · intro bound hb
      rw [sampleRanges, hl r List.mem_cons_self,
        sampleRange_of_count rate r.sRange.s1 m _ bound (by omega) hm1 hm2]
      simp only [throwUnless, lift, bind, Except.bind, pure, Except.pure, if_true]
      rw [h3 bound (by omega)]
      simp only [heq]
    · rw [List.range_add, List.map_append]
      apply List.rel_append
      · rw [List.map_map, List.forall₂_map_left_iff, List.forall₂_map_right_iff, List.forall₂_same]
        intro i hi
        rw [List.mem_range] at hi
        have hle := hm1 i hi
        refine ⟨r.laneId, previous + r.sRange.s0 + rate + i * rate, ?_, rfl⟩
        have h0 : (0 : ℚ) ≤ i * rate := by positivity
        have hat := At.here r rs (previous + (i + 1) * rate) (by linarith) (by rw [habs]; linarith)
        rw [if_pos hr0] at hat
        have he : previous + r.sRange.s0 + rate + i * rate = r.sRange.s0 + (previous + (i + 1) * rate) := by ring
        rw [he]
        exact hat
      · rw [List.map_map, List.forall₂_map_left_iff]
        rw [List.forall₂_map_left_iff] at h6
        refine h6.imp ?_
        rintro i p ⟨lane, s, hat, rfl⟩
        refine ⟨lane, s, ?_, rfl⟩
        have := At.later r hat
        rw [habs] at this
        have he : ((fun i : Nat => previous + (i + 1) * rate) ∘ fun x => m + x) i = r.sRange.s1 - r.sRange.s0 +
            (previous + r.sRange.s0 + rate + m * rate - r.sRange.s1 - rate + (i + 1) * rate) := by
          simp only [Function.comp]; push_cast; ring
        rw [he]
        exact this

/-- The loops terminate, whatever the direction of the ranges. -/
theorem sampleRanges_terminates (g : RoadGeometry P) {rate : ℚ} (hr : 0 < rate) : ∀ (rs : List LaneSRange) (previous : ℚ),
    ∃ (N : Nat) (o : Except Err (List P × ℚ)), (∀ bound, N ≤ bound → sampleRanges g rate bound rs previous = lift o) ∧
      ((∃ q, o = .ok q) ↔ ∀ r ∈ rs, g.hasLane r.laneId = true) ∧ ∀ e, o = .error e → e = .throws := by
  intro rs
  induction rs with
  | nil => intro previous; exact ⟨0, .ok ([], previous), by simp [sampleRanges, lift], by simp, by simp⟩
  | cons r rs ih =>
    intro previous
    rcases hl : g.hasLane r.laneId with _ | _
    · refine ⟨0, .error .throws, ?_, by simp [hl], by simp⟩
      intro bound _
      rw [sampleRanges, hl]
      rfl
    · obtain ⟨m, hm1, hm2⟩ := exists_count hr r.sRange.s1 (previous + r.sRange.s0 + rate)
      obtain ⟨N, o, h1, h2, h3⟩ := ih (previous + r.sRange.s0 + rate + m * rate - r.sRange.s1 - rate)
      refine ⟨max N (m + 1), o.map fun q => (((List.range m).map fun i : Nat =>
        previous + r.sRange.s0 + rate + i * rate).map (fun s => g.toInertial r.laneId (s, 0, 0)) ++ q.1, q.2), ?_, ?_, ?_⟩
      · intro bound hb
        rw [sampleRanges, hl, sampleRange_of_count rate r.sRange.s1 m _ bound (by omega) hm1 hm2]
        simp only [throwUnless, lift, bind, Except.bind, pure, Except.pure, if_true]
        rw [h1 bound (by omega)]
        rcases o with e | q <;> rfl
      · simp only [List.forall_mem_cons, hl, true_and]
        rw [← h2]
        rcases o with e | q <;> simp [Except.map]
      · intro e he
        rcases o with e' | q
        · simp only [Except.map, Except.error.injEq] at he
          subst he
          exact h3 _ rfl
        · simp [Except.map] at he

end Maliput.Waypoints
