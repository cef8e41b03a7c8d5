import Verif.Lemmas.PiecewiseHermite
import Verif.Lemmas.PiecewiseJoin
import Verif.Props.PiecewisePolynomial

set_option autoImplicit false
set_option linter.unusedSectionVars false

/-! C99, C100: the operations on piecewise polynomials. -/
namespace Maliput.Props

open Maliput Poly Piecewise Piecewise.Spec

variable {R : Type} [Field R] [LinearOrder R] [IsStrictOrderedRing R]

/-! C99: concatenation, appending, removal and slices. -/

/-- C99. `ConcatenateInTime` of a trajectory that starts where the first one ends, up to a tolerance: before the end
the values of the first one, from it on those of the second one, shifted to start there. -/
theorem concatenation (p q : PP R) (hp : Valid p) (hq : Valid q)
    (h : |first q - last p| < max |last p| 1 * epsilonTime) :
    ∃ r, p.concatenate q = .ok r ∧ Valid r ∧ first r = first p ∧ last r - last p = last q - first q ∧
      ∀ t n, (t < last p → r.evalDerivative t n = p.evalDerivative t n) ∧
        (last p ≤ t → r.evalDerivative t n = q.evalDerivative (first q + (t - last p)) n) := by
  have hr := valid_concatenate hp hq
  obtain ⟨f1, f2⟩ := concatenate_bounds hp hq
  have l1 := hp.first_lt_last
  have l2 := hq.first_lt_last
  refine ⟨_, by rw [concatenate_eq hp hq, if_pos h], hr, f1, by rw [f2]; ring, fun t n => ⟨fun ht => ?_, fun ht => ?_⟩⟩
  · rw [hr.evalDerivative, hp.evalDerivative]
    dsimp only
    rw [concatenate_value hp hq]
    have e : saturated (⟨p.breaks.dropLast ++ q.breaks.map (· - (first q - last p)), p.polynomials ++ q.polynomials⟩ : PP R) t =
        saturated p t := by
      unfold saturated
      rw [f1, f2]
      split
      · rfl
      · rw [if_neg (by linarith), if_neg (by linarith)]
    have e' : saturated p t < last p := by
      unfold saturated
      split
      · exact l1
      · rw [if_neg (by linarith)]; exact ht
    rw [e, if_pos e']
  · rw [hr.evalDerivative, hq.evalDerivative]
    dsimp only
    rw [concatenate_value hp hq]
    have e : saturated (⟨p.breaks.dropLast ++ q.breaks.map (· - (first q - last p)), p.polynomials ++ q.polynomials⟩ : PP R) t =
        saturated q (first q + (t - last p)) - (first q - last p) := by
      unfold saturated
      rw [f1, f2, if_neg (by linarith), if_neg (show ¬ first q + (t - last p) < first q by linarith)]
      by_cases hl : last q < first q + (t - last p)
      · rw [if_pos hl, if_pos (by linarith)]
      · rw [if_neg hl, if_neg (by linarith)]; ring
    have e' : ¬ saturated q (first q + (t - last p)) - (first q - last p) < last p := by
      have := (hq.saturated_mem (first q + (t - last p))).1
      linarith
    rw [e, if_neg e', sub_add_cancel]

/-- One more piece, from 3 to 4. -/
def nextPiece : PP ℚ := ⟨[3, 4], [ofCoefficients 48 [0, 2]]⟩

theorem nextPiece_valid : Valid nextPiece := ⟨rfl, by decide, by decide +kernel, by decide +kernel⟩

example : |first nextPiece - last twoPieces| < max |last twoPieces| 1 * epsilonTime ∧
    ([2, 3, 7/2, 4, 5] : List ℚ).map (fun t => (twoPieces.concatenate nextPiece).bind (·.evalDerivative t 0)) =
      [.ok 6, .ok 0, .ok 1, .ok 2, .ok 2] := by decide +kernel

/-- C99. A trajectory that starts elsewhere is refused; one without segments becomes the other one. -/
theorem concatenation_refuses (p q : PP R) (hp : Valid p) (hq : Valid q) :
    (¬ |first q - last p| < max |last p| 1 * epsilonTime → p.concatenate q = .error .throws) ∧
    ∀ bs, (⟨bs, []⟩ : PP R).concatenate q = .ok q := by
  refine ⟨fun h => ?_, fun bs => rfl⟩
  rw [concatenate_eq hp hq, if_neg h]

example : nextPiece.concatenate twoPieces = .error .throws ∧ empty.concatenate twoPieces = .ok twoPieces := by decide +kernel

/-- C99. `RemoveFinalSegment` of a trajectory with more than one segment keeps the others. -/
theorem final_segment_removed (p : PP R) (hp : Valid p) (h2 : 2 ≤ p.polynomials.length) :
    ∃ r, p.removeFinal = .ok r ∧ Valid r ∧ first r = first p ∧ r.breaks ++ [last p] = p.breaks ∧
      ∀ t n, t < last r → r.evalDerivative t n = p.evalDerivative t n := by
  have hl := hp.lengths
  have hne : p.polynomials ≠ [] := by intro h; rw [h] at h2; simp at h2
  have hbne : p.breaks ≠ [] := by intro h; rw [h] at hl; simp at hl
  have hr : Valid (⟨p.breaks.dropLast, p.polynomials.dropLast⟩ : PP R) :=
    ⟨by simp; omega, by simp; omega, hp.increasing.sublist (List.dropLast_sublist _),
      fun q hq => hp.univariate q (List.mem_of_mem_dropLast hq)⟩
  have hf : first (⟨p.breaks.dropLast, p.polynomials.dropLast⟩ : PP R) = first p := by
    rw [hr.first_eq, hp.first_eq, List.getElem_dropLast]
  have hlast : last (⟨p.breaks.dropLast, p.polynomials.dropLast⟩ : PP R) = p.breaks[p.breaks.length - 2]'(by omega) := by
    rw [hr.last_eq]
    simp only [List.getElem_dropLast]
    congr 1
    simp; omega
  refine ⟨_, by unfold PP.removeFinal; rw [if_neg hne]; rfl, hr, hf, ?_, fun t n ht => ?_⟩
  · have : last p = p.breaks.getLast hbne := by
      unfold last; rw [List.getLastD_eq_getLast?, List.getLast?_eq_some_getLast hbne]; rfl
    rw [this]; exact List.dropLast_append_getLast hbne
  · have hlt : p.breaks[p.breaks.length - 2]'(by omega) < last p := by
      rw [hp.last_eq]; exact List.pairwise_iff_getElem.1 hp.increasing _ _ _ _ (by omega)
    have f1 := hp.first_lt_last
    have f2 := hr.first_lt_last
    have e : saturated (⟨p.breaks.dropLast, p.polynomials.dropLast⟩ : PP R) t = saturated p t := by
      unfold saturated
      rw [hf]
      split
      · rfl
      · rw [if_neg (by linarith), if_neg (by rw [hlast] at ht; linarith)]
    have e' : saturated p t < p.breaks[p.breaks.length - 2]'(by omega) := by
      rw [hlast] at ht
      rw [hlast, hf] at f2
      unfold saturated
      split
      · exact f2
      · rw [if_neg (by linarith)]; exact ht
    rw [hr.evalDerivative, hp.evalDerivative, e]
    dsimp only
    have := evalPieces_take n (saturated p t) (p.polynomials.length - 1) p.breaks p.polynomials (by omega) (by omega) hl
      hp.increasing (.inl (by simpa only [show p.polynomials.length - 1 = p.breaks.length - 2 by omega] using e'))
    rw [← this, List.dropLast_eq_take, List.dropLast_eq_take, show p.polynomials.length - 1 + 1 = p.breaks.length - 1 by omega]

example : 2 ≤ twoPieces.polynomials.length ∧ twoPieces.removeFinal = .ok ⟨[0, 1], [ofCoefficients 48 [1, 1]]⟩ := by
  decide +kernel

/-- C99: the removal of the only segment leaves a break without segments; a trajectory without segments stops the
program. -/
theorem only_segment_removed :
    nextPiece.removeFinal = .ok ⟨[3], []⟩ ∧ (⟨[3], []⟩ : PP ℚ).removeFinal = .error .aborts := by decide +kernel

/-- C99. `AppendCubicHermiteSegment`: the values before do not change, the new segment continues the value and the
derivative, and ends with the given ones. -/
theorem hermite_segment_appended (p : PP R) (hp : Valid p) (time y yd : R) (h : epsilonTime ≤ time - last p) :
    ∃ r, p.appendHermite time y yd = .ok r ∧ Valid r ∧ r.breaks = p.breaks ++ [time] ∧
      r.evalDerivative time 0 = .ok y ∧ r.evalDerivative time 1 = .ok yd ∧
      (∀ t n, t < last p → r.evalDerivative t n = p.evalDerivative t n) ∧
      (∀ n, n < 2 → r.evalDerivative (last p) n = p.evalDerivative (last p) n) := by
  have hl := hp.lengths; have hs := hp.segments
  have hpos := epsilonTime_pos (R := R)
  have hne : p.polynomials ≠ [] := by intro h; rw [h] at hs; simp at hs
  have hlast := hp.last_eq
  have hfl := hp.first_lt_last
  have hin : InSegment p.breaks (last p) (p.polynomials.length - 1) :=
    ⟨p.breaks[p.polynomials.length - 1]'(by omega), last p, List.getElem?_eq_getElem (by omega), by
      rw [hlast, List.getElem?_eq_getElem (by omega)]
      congr 2; omega, by
      rw [hlast]; exact (List.pairwise_iff_getElem.1 hp.increasing _ _ _ _ (by omega)).le, .inr ⟨rfl, by omega⟩⟩
  have hlastv : ∀ n, p.evalDerivative (last p) n = p.evaluateSegment (p.polynomials.length - 1) (last p) n := by
    intro n
    rw [hp.evalDerivative, saturated_of_mem hfl.le (le_refl _), hp.evaluateSegment (by omega),
      evalPieces_seg n _ _ _ _ hl hp.increasing (by omega) (by omega) hin]
  obtain ⟨v0, hv0⟩ : ∃ v, p.evalDerivative (last p) 0 = .ok v := ⟨_, hp.evalDerivative _ _⟩
  obtain ⟨v1, hv1⟩ : ∃ v, p.evalDerivative (last p) 1 = .ok v := ⟨_, hp.evalDerivative _ _⟩
  -- the new piece, as a trajectory
  have hq : Valid (⟨[last p, time], [hermiteQ (last p, v0, v1) (time, y, yd)]⟩ : PP R) :=
    ⟨rfl, by simp, by simp; linarith, by simp [hermiteQ, ofCoefficients]⟩
  have hqf : first (⟨[last p, time], [hermiteQ (last p, v0, v1) (time, y, yd)]⟩ : PP R) = last p := rfl
  have hql : last (⟨[last p, time], [hermiteQ (last p, v0, v1) (time, y, yd)]⟩ : PP R) = time := rfl
  have hoff : (0 : R) < max |last p| 1 * epsilonTime := mul_pos (lt_max_of_lt_right one_pos) hpos
  obtain ⟨r, hr1, hr2, hr3, hr4, hr5⟩ := concatenation p _ hp hq (by rw [hqf, sub_self, abs_zero]; exact hoff)
  have hreq : p.appendHermite time y yd = .ok r := by
    rw [concatenate_eq hp hq, hqf, sub_self, abs_zero, if_pos hoff] at hr1
    have hr1 := Except.ok.inj hr1
    subst hr1
    unfold PP.appendHermite
    rw [if_neg hne, hp.endTime]
    show (if ¬ last p < time then _ else _) = _
    rw [if_neg (by simp; linarith), ← hlastv, ← hlastv, hv0, hv1]
    show (do
      let cs ← cubicCoefficients (time - last p) v0 y v1 yd
      return (⟨p.breaks ++ [time], p.polynomials ++ [ofCoefficients tVar cs]⟩ : PP R)) = _
    rw [cubicCoefficients_ok h]
    show Except.ok _ = Except.ok _
    congr 2
    simp only [List.map_cons, List.map_nil, sub_zero]
    have : p.breaks.dropLast ++ [last p] = p.breaks := by
      have hbne : p.breaks ≠ [] := by intro h; rw [h] at hl; simp at hl
      have : last p = p.breaks.getLast hbne := by
        unfold last; rw [List.getLastD_eq_getLast?, List.getLast?_eq_some_getLast hbne]; rfl
      rw [this]; exact List.dropLast_append_getLast hbne
    conv_lhs => rw [← this]
    simp
  have hbreaks : r.breaks = p.breaks ++ [time] := by
    unfold PP.appendHermite at hreq
    rw [if_neg hne, hp.endTime] at hreq
    change (if ¬ last p < time then _ else _) = _ at hreq
    rw [if_neg (by simp; linarith), ← hlastv, ← hlastv, hv0, hv1] at hreq
    change (do
      let cs ← cubicCoefficients (time - last p) v0 y v1 yd
      return (⟨p.breaks ++ [time], p.polynomials ++ [ofCoefficients tVar cs]⟩ : PP R)) = _ at hreq
    rw [cubicCoefficients_ok h] at hreq
    exact (congrArg PP.breaks (Except.ok.inj hreq)).symm
  refine ⟨r, hreq, hr2, hbreaks, ?_, ?_, fun t n ht => (hr5 t n).1 ht, fun n hn => ?_⟩
  · rw [(hr5 time 0).2 (by linarith), hqf, hq.evalDerivative, saturated_of_mem (by rw [hqf]; linarith) (by rw [hql]; linarith)]
    rw [show last p + (time - last p) = time by ring]
    simp only [evalPieces, true_or, if_true]
    exact congrArg _ (hermiteQ_end (last p, v0, v1) (time, y, yd) (by show time - last p ≠ 0; linarith))
  · rw [(hr5 time 1).2 (by linarith), hqf, hq.evalDerivative, saturated_of_mem (by rw [hqf]; linarith) (by rw [hql]; linarith)]
    rw [show last p + (time - last p) = time by ring]
    simp only [evalPieces, true_or, if_true]
    exact congrArg _ (hermiteQ_end' (last p, v0, v1) (time, y, yd) (by show time - last p ≠ 0; linarith))
  · rw [(hr5 (last p) n).2 (le_refl _), hqf, hq.evalDerivative, sub_self, add_zero,
      saturated_of_mem (by rw [hqf]) (by rw [hql]; linarith)]
    simp only [evalPieces, true_or, if_true, sub_self]
    match n, hn with
    | 0, _ => rw [hv0, hermiteQ_start]
    | 1, _ => rw [hv1, hermiteQ_start']

example : ([2, 3, 4, 5] : List ℚ).map (fun t => (twoPieces.appendHermite 5 1 0).bind (·.evalDerivative t 0)) =
    [.ok 6, .ok 9, .ok 6, .ok 1] := by decide +kernel

/-- C99. A segment that is too short is refused, and one that does not go forward stops the program. -/
theorem hermite_segment_refused (p : PP R) (hp : Valid p) (time y yd : R) :
    (last p < time → time - last p < epsilonTime → p.appendHermite time y yd = .error .throws) ∧
    (time ≤ last p → p.appendHermite time y yd = .error .aborts) := by
  have hs := hp.segments
  have hne : p.polynomials ≠ [] := by intro h; rw [h] at hs; simp at hs
  constructor
  · intro h1 h2
    unfold PP.appendHermite
    rw [if_neg hne, hp.endTime]
    show (if ¬ last p < time then _ else _) = _
    rw [if_neg (by simpa using h1), hp.evaluateSegment (by omega), hp.evaluateSegment (by omega)]
    dsimp only [bind, Except.bind]
    rw [cubicCoefficients_error h2]
  · intro h
    unfold PP.appendHermite
    rw [if_neg hne, hp.endTime]
    show (if ¬ last p < time then _ else _) = _
    rw [if_pos (by simpa using h)]

example : twoPieces.appendHermite 3 0 0 = .error .aborts := by decide +kernel

/-- C99. `AppendFirstOrderSegment`: the values before do not change and the new segment is the line from the end to the
given value; one that does not go forward stops the program. -/
theorem first_order_segment_appended (p : PP R) (hp : Valid p) (time y : R) :
    (time ≤ last p → p.appendFirstOrder time y = .error .aborts) ∧
    (last p < time → ∃ r v, p.evalDerivative (last p) 0 = .ok v ∧ p.appendFirstOrder time y = .ok r ∧ Valid r ∧
      r.breaks = p.breaks ++ [time] ∧ (∀ t n, t < last p → r.evalDerivative t n = p.evalDerivative t n) ∧
      ∀ t, last p ≤ t → t ≤ time → r.evalDerivative t 0 = .ok (v + (y - v) * (t - last p) / (time - last p))) := by
  have hl := hp.lengths; have hs := hp.segments
  have hpos := epsilonTime_pos (R := R)
  have hne : p.polynomials ≠ [] := by intro h; rw [h] at hs; simp at hs
  have hlast := hp.last_eq
  have hfl := hp.first_lt_last
  constructor
  · intro h
    unfold PP.appendFirstOrder
    rw [if_neg hne, hp.endTime]
    show (if ¬ last p < time then _ else _) = _
    rw [if_pos (by simpa using h)]
  intro h
  have hin : InSegment p.breaks (last p) (p.polynomials.length - 1) :=
    ⟨p.breaks[p.polynomials.length - 1]'(by omega), last p, List.getElem?_eq_getElem (by omega), by
      rw [hlast, List.getElem?_eq_getElem (by omega)]
      congr 2; omega, by
      rw [hlast]; exact (List.pairwise_iff_getElem.1 hp.increasing _ _ _ _ (by omega)).le, .inr ⟨rfl, by omega⟩⟩
  have hlastv : p.evalDerivative (last p) 0 = p.evaluateSegment (p.polynomials.length - 1) (last p) 0 := by
    rw [hp.evalDerivative, saturated_of_mem hfl.le (le_refl _), hp.evaluateSegment (by omega),
      evalPieces_seg 0 _ _ _ _ hl hp.increasing (by omega) (by omega) hin]
  obtain ⟨v, hv⟩ : ∃ v, p.evalDerivative (last p) 0 = .ok v := ⟨_, hp.evalDerivative _ _⟩
  have hq : Valid (⟨[last p, time], [ofCoefficients tVar [v, (y - v) / (time - last p)]]⟩ : PP R) :=
    ⟨rfl, by simp, by simpa using h, by simp [ofCoefficients]⟩
  have hqf : first (⟨[last p, time], [ofCoefficients tVar [v, (y - v) / (time - last p)]]⟩ : PP R) = last p := rfl
  have hql : last (⟨[last p, time], [ofCoefficients tVar [v, (y - v) / (time - last p)]]⟩ : PP R) = time := rfl
  have hoff : (0 : R) < max |last p| 1 * epsilonTime := mul_pos (lt_max_of_lt_right one_pos) hpos
  obtain ⟨r, hr1, hr2, hr3, hr4, hr5⟩ := concatenation p _ hp hq (by rw [hqf, sub_self, abs_zero]; exact hoff)
  have happ : p.appendFirstOrder time y =
      .ok ⟨p.breaks ++ [time], p.polynomials ++ [ofCoefficients tVar [v, (y - v) / (time - last p)]]⟩ := by
    unfold PP.appendFirstOrder
    rw [if_neg hne, hp.endTime]
    show (if ¬ last p < time then _ else _) = _
    rw [if_neg (by simpa using h), ← hlastv, hv]
    rfl
  have hreq : r = ⟨p.breaks ++ [time], p.polynomials ++ [ofCoefficients tVar [v, (y - v) / (time - last p)]]⟩ := by
    rw [concatenate_eq hp hq, hqf, sub_self, abs_zero, if_pos hoff] at hr1
    rw [← Except.ok.inj hr1]
    congr 1
    simp only [List.map_cons, List.map_nil, sub_zero]
    have : p.breaks.dropLast ++ [last p] = p.breaks := by
      have hbne : p.breaks ≠ [] := by intro h; rw [h] at hl; simp at hl
      have : last p = p.breaks.getLast hbne := by
        unfold last; rw [List.getLastD_eq_getLast?, List.getLast?_eq_some_getLast hbne]; rfl
      rw [this]; exact List.dropLast_append_getLast hbne
    conv_rhs => rw [← this]
    simp
  refine ⟨r, v, hv, by rw [happ, hreq], hr2, by rw [hreq], fun t n ht => (hr5 t n).1 ht, fun t h1 h2 => ?_⟩
  rw [(hr5 t 0).2 h1, hqf, hq.evalDerivative, show last p + (t - last p) = t by ring,
    saturated_of_mem (by rw [hqf]; exact h1) (by rw [hql]; exact h2)]
  simp only [evalPieces, true_or, if_true, derivAt_ofCoefficients, Poly.Spec.powerSeries]
  congr 1; ring

example : ([2, 3, 4, 5, 6] : List ℚ).map (fun t => (twoPieces.appendFirstOrder 5 1).bind (·.evalDerivative t 0)) =
    [.ok 6, .ok 9, .ok 5, .ok 1, .ok 1] ∧ twoPieces.appendFirstOrder 3 1 = .error .aborts := by decide +kernel

/-- C99. `slice` has the values of the trajectory from the start of its first segment to the end of its last one. -/
theorem slice_values (p : PP R) (hp : Valid p) (ha : Apart p.breaks) (start count : Nat) (hc : 1 ≤ count)
    (h : start + count ≤ p.polynomials.length) :
    ∃ r, p.slice start count = .ok r ∧ Valid r ∧ r.breaks = (p.breaks.drop start).take (count + 1) ∧
      ∀ t n, first r ≤ t → t < last r → r.evalDerivative t n = p.evalDerivative t n := by
  have hl := hp.lengths
  have hsub : ((p.breaks.drop start).take (count + 1)).Sublist p.breaks :=
    (List.take_sublist _ _).trans (List.drop_sublist _ _)
  have hap : Apart ((p.breaks.drop start).take (count + 1)) := by
    refine List.isChain_iff_getElem.2 fun i hi => ?_
    simp only [List.length_take, List.length_drop] at hi
    simp only [List.getElem_take, List.getElem_drop]
    exact ha.gap (start + i) (by omega)
  have hr : Valid (⟨(p.breaks.drop start).take (count + 1), (p.polynomials.drop start).take count⟩ : PP R) :=
    ⟨by simp; omega, by simp; omega, hp.increasing.sublist hsub,
      fun q hq => hp.univariate q (((List.take_sublist _ _).trans (List.drop_sublist _ _)).subset hq)⟩
  refine ⟨_, ?_, hr, rfl, fun t n h1 h2 => ?_⟩
  · unfold PP.slice throwUnless
    rw [hp.segments_eq]
    simp only [show start < p.polynomials.length by omega, show 1 ≤ start + count ∧ start + count - 1 < p.polynomials.length by omega,
      decide_true, if_true, and_self]
    exact make_ok hap _
  · have e1 : first (⟨(p.breaks.drop start).take (count + 1), (p.polynomials.drop start).take count⟩ : PP R) =
        p.breaks[start]'(by omega) := by rw [hr.first_eq]; simp
    have e2 : last (⟨(p.breaks.drop start).take (count + 1), (p.polynomials.drop start).take count⟩ : PP R) =
        p.breaks[start + count]'(by omega) := by
      rw [hr.last_eq]
      simp only [List.getElem_take, List.getElem_drop, List.length_take, List.length_drop]
      congr 1
      omega
    rw [hr.evalDerivative, hp.evalDerivative, saturated_of_mem h1 h2.le]
    rw [e1] at h1
    rw [e2] at h2
    have m : first p ≤ t ∧ t ≤ last p := by
      rw [hp.first_eq, hp.last_eq]
      constructor
      · refine le_trans ?_ h1
        rcases Nat.eq_zero_or_pos start with h | h
        · simp only [h]; exact le_refl _
        · exact (List.pairwise_iff_getElem.1 hp.increasing _ _ _ _ h).le
      · refine h2.le.trans ?_
        rcases Nat.lt_or_ge (start + count) (p.breaks.length - 1) with h | h
        · exact (List.pairwise_iff_getElem.1 hp.increasing _ _ _ _ h).le
        · have : p.breaks.length - 1 = start + count := by omega
          simp only [this]; exact le_refl _
    rw [saturated_of_mem m.1 m.2]
    dsimp only
    rw [evalPieces_take n t count (p.breaks.drop start) (p.polynomials.drop start) (by omega) (by simp; omega)
      (by simp; omega) (hp.increasing.sublist (List.drop_sublist _ _)) (.inl (by simpa using h2)),
      evalPieces_drop n t start _ _ (by omega) hl hp.increasing h1]

example : twoPieces.slice 1 1 = .ok ⟨[1, 3], [ofCoefficients 48 [5, 0, 1]]⟩ ∧ twoPieces.slice 1 2 = .error .throws ∧
    twoPieces.slice 1 0 = .ok ⟨[1], []⟩ := by decide +kernel

/-! C100: transformations. -/

/-- C100. `shiftRight` moves the trajectory in time. -/
theorem shifted_values (p : PP R) (hp : Valid p) (offset : R) :
    Valid (p.shiftRight offset) ∧ ∀ t n, (p.shiftRight offset).evalDerivative (t + offset) n = p.evalDerivative t n := by
  have hl := hp.lengths
  have e : (p.shiftRight offset).breaks = p.breaks.map (· - -offset) := by simp [PP.shiftRight]
  have hv : Valid (p.shiftRight offset) :=
    ⟨by simp [PP.shiftRight, hl], hp.segments, by
      refine List.Pairwise.map _ (fun x y h => ?_) hp.increasing; linarith, hp.univariate⟩
  refine ⟨hv, fun t n => ?_⟩
  have f1 : first (p.shiftRight offset) = first p + offset := by rw [hv.first_eq, hp.first_eq]; simp [PP.shiftRight]
  have f2 : last (p.shiftRight offset) = last p + offset := by rw [hv.last_eq, hp.last_eq]; simp [PP.shiftRight]
  rw [hv.evalDerivative, hp.evalDerivative, e, evalPieces_map_sub]
  congr 2
  unfold saturated
  rw [f1, f2]
  simp only [add_lt_add_iff_right]
  split
  · ring
  · split <;> ring

example : (twoPieces.shiftRight 10).evalDerivative 12 0 = .ok 6 := by decide +kernel

/-- C100. `ScaleTime` by a positive number stretches the trajectory; another number stops the program. -/
theorem scaled_values (p : PP R) (hp : Valid p) (v : Nat) (hs : SameVariable v p) (scale : R) (h : 0 < scale) :
    ∃ r, p.scaleTime scale = .ok r ∧ Valid r ∧ ∀ t, r.evalDerivative (t * scale) 0 = p.evalDerivative t 0 := by
  have hl := hp.lengths
  obtain ⟨rs, h1, h2, h3⟩ := mapM_scale h p.polynomials hs
  have hlen : rs.length = p.polynomials.length := h3.length_eq.symm
  have hv : Valid (⟨p.breaks.map (· * scale), rs⟩ : PP R) :=
    ⟨by simp [hlen, hl], by rw [hlen]; exact hp.segments, by
      refine List.Pairwise.map _ (fun x y hxy => ?_) hp.increasing
      exact (mul_lt_mul_iff_left₀ h).2 hxy, h2⟩
  refine ⟨_, by unfold PP.scaleTime; rw [if_neg (by simpa using h), h1]; rfl, hv, fun t => ?_⟩
  have f1 : first (⟨p.breaks.map (· * scale), rs⟩ : PP R) = first p * scale := by rw [hv.first_eq, hp.first_eq]; simp
  have f2 : last (⟨p.breaks.map (· * scale), rs⟩ : PP R) = last p * scale := by rw [hv.last_eq, hp.last_eq]; simp
  rw [hv.evalDerivative, hp.evalDerivative]
  have e : saturated (⟨p.breaks.map (· * scale), rs⟩ : PP R) (t * scale) = saturated p t * scale := by
    unfold saturated
    rw [f1, f2]
    simp only [mul_lt_mul_iff_left₀ h]
    split
    · rfl
    · split <;> rfl
  rw [e]
  exact congrArg _ (evalPieces_scale h _ _ h3)

theorem twoPieces_inOne : SameVariable 48 twoPieces := by
  intro q hq
  rcases List.mem_cons.1 hq with rfl | hq
  · exact ofCoefficients_inOne _
  · rcases List.mem_cons.1 hq with rfl | hq
    · exact ofCoefficients_inOne _
    · cases hq

example : ([0, 3, 6, 9, 20] : List ℚ).map (fun t => (twoPieces.scaleTime 3).bind (·.evalDerivative t 0)) =
    [.ok 1, .ok 5, .ok 6, .ok 9, .ok 9] ∧ twoPieces.scaleTime 0 = .error .aborts := by decide +kernel

/-- C100. `ReverseTime`: the value at the time `-t` is that of the segment before `t`, for a break the one that ends
there, as the documentation says. -/
theorem reversed_values (p : PP R) (hp : Valid p) (v : Nat) (hs : SameVariable v p) :
    ∃ r, p.reverseTime = .ok r ∧ Valid r ∧ ∀ (t a b : R) (i : Nat) (q : Poly.Polynomial R), p.breaks[i]? = some a →
      p.breaks[i + 1]? = some b → p.polynomials[i]? = some q → (a < t ∨ a = t ∧ i = 0) → t ≤ b →
      r.evalDerivative (-t) 0 = evaluateUnivariate q (t - a) 0 := by
  have hl := hp.lengths
  obtain ⟨rs, h1, h2, h3, h4⟩ := reversePieces_spec p.breaks p.polynomials hl hs
  have hv : Valid (⟨p.breaks.reverse.map (· * -1), rs.reverse⟩ : PP R) :=
    ⟨by simp [h2, hl], by simp only [List.length_reverse, h2]; exact hp.segments, by
      refine List.Pairwise.map _ (R := fun a b => b < a) (fun x y hxy => ?_) (List.pairwise_reverse.2 hp.increasing)
      linarith, fun q hq => h3 q (List.mem_reverse.1 hq)⟩
  refine ⟨_, by unfold PP.reverseTime; rw [h1]; rfl, hv, fun t a b i q ha hb hq k1 k2 => ?_⟩
  obtain ⟨ha1, ha2⟩ := List.getElem?_eq_some_iff.1 ha
  obtain ⟨hb1, hb2⟩ := List.getElem?_eq_some_iff.1 hb
  obtain ⟨hq1, hq2⟩ := List.getElem?_eq_some_iff.1 hq
  subst ha2 hb2 hq2
  have hge : p.breaks[i] ≤ t := k1.elim le_of_lt (fun h => h.1.le)
  have hbr : ∀ j (hj : j < p.breaks.length), (p.breaks.reverse.map (· * -1))[p.breaks.length - 1 - j]'(by simp; omega) =
      -p.breaks[j] := by
    intro j hj
    rw [List.getElem_map, List.getElem_reverse]
    simp only [show p.breaks.length - 1 - (p.breaks.length - 1 - j) = j by omega, mul_neg, mul_one]
  have b1 := hbr (i + 1) hb1
  have b2 := hbr i ha1
  have hidx : p.breaks.length - 1 - i = p.polynomials.length - 1 - i + 1 := by omega
  have hidx' : p.breaks.length - 1 - (i + 1) = p.polynomials.length - 1 - i := by omega
  simp only [hidx] at b2
  simp only [hidx'] at b1
  have hin : InSegment (p.breaks.reverse.map (· * -1)) (-t) (p.polynomials.length - 1 - i) := by
    refine ⟨-p.breaks[i + 1], -p.breaks[i], ?_, ?_, by linarith, ?_⟩
    · rw [List.getElem?_eq_getElem (by simp; omega), b1]
    · rw [List.getElem?_eq_getElem (by simp; omega), b2]
    · rcases k1 with k1 | ⟨k1, k1'⟩
      · exact .inl (by linarith)
      · exact .inr ⟨by rw [k1], by simp; omega⟩
  obtain ⟨m1, m2⟩ := hv.segment_mem (t := -t) (i := p.polynomials.length - 1 - i) (by simp; omega) (by
    dsimp only; rw [b1]; linarith) (by dsimp only; rw [b2]; linarith)
  rw [hv.evalDerivative, saturated_of_mem m1 m2, evalPieces_seg 0 _ _ _ _ hv.lengths hv.increasing (by simp; omega)
    (by simp; omega) hin, evaluateUnivariate_ok _ _ _ (hs _ (List.getElem_mem hq1)).univariate]
  dsimp only
  have hrs : rs.reverse[p.polynomials.length - 1 - i]'(by simp; omega) = rs[i]'(by omega) := by
    rw [List.getElem_reverse]; congr 1; omega
  rw [b1, hrs]
  congr 1
  rw [← h4 i hq1 (t - p.breaks[i])]
  congr 1; ring

example : ([-3, -2, -1, -1/2, 0] : List ℚ).map (fun t => twoPieces.reverseTime.bind (·.evalDerivative t 0)) =
    [.ok 9, .ok 6, .ok 2, .ok (3/2), .ok 1] := by decide +kernel

/-- C100. `derivative(n)` is the trajectory of the derivatives of the order n. -/
theorem derivative_values (p : PP R) (hp : Valid p) (v : Nat) (hs : ∀ q ∈ p.polynomials, Poly.Spec.InVariable v q) (n : Nat) :
    ∃ r, p.derivative n = .ok r ∧ Valid r ∧ ∀ t k, r.evalDerivative t k = p.evalDerivative t (n + k) := by
  rcases Nat.eq_zero_or_pos n with h | h
  · subst h
    exact ⟨p, rfl, hp, fun t k => by rw [Nat.zero_add]⟩
  · obtain ⟨rs, h1, h2, h3⟩ := mapM_derivative n (by omega) p.polynomials fun q hq => ⟨hp.univariate q hq, hs q hq⟩
    have hv := hp.of_polynomials (h3 0).length_eq h2
    refine ⟨⟨p.breaks, rs⟩, ?_, hv, fun t k => ?_⟩
    · unfold PP.derivative; rw [if_neg (by omega), h1]; rfl
    · rw [hv.evalDerivative, hp.evalDerivative]
      exact congrArg _ (evalPieces_congr k (n + k) _ _ (h3 k))

example : ([0, 1, 2, 3] : List ℚ).map (fun t => (twoPieces.derivative 1).bind (·.evalDerivative t 0)) =
    [.ok 1, .ok 0, .ok 2, .ok 4] := by decide +kernel

/-- C100. When `integral` returns, the result has the given value at the start, has the trajectory as its
derivative, and neighbouring pieces agree at their common break. -/
theorem integral_values (p : PP R) (hp : Valid p) (v : Nat) (hs : ∀ q ∈ p.polynomials, Poly.Spec.InVariable v q) (c : R)
    (r : PP R) (h : p.integral c = .ok r) : Valid r ∧ r.breaks = p.breaks ∧ r.evalDerivative (first p) 0 = .ok c ∧
      (∀ t, r.evalDerivative t 1 = p.evalDerivative t 0) ∧
      ∀ i a b q q', r.breaks[i]? = some a → r.breaks[i + 1]? = some b → r.polynomials[i]? = some q →
        r.polynomials[i + 1]? = some q' → evaluateUnivariate q (b - a) 0 = evaluateUnivariate q' 0 0 := by
  have hl := hp.lengths
  unfold PP.integral at h
  rw [if_neg (fun e => by have := hp.segments; rw [e] at this; simp at this)] at h
  obtain ⟨rs, h1, h2⟩ := bind_ok.1 h
  have h2 : r = ⟨p.breaks, rs⟩ := (Except.ok.inj h2).symm
  subst h2
  obtain ⟨s1, s2, s3, s4⟩ := integralPieces_spec p.breaks p.polynomials c rs hl hs h1
  have hv := hp.of_polynomials s1.length_eq s2
  refine ⟨hv, rfl, ?_, fun t => ?_, fun i a b q q' ha hb hq hq' => ?_⟩
  · rw [hv.evalDerivative]
    have e : saturated (⟨p.breaks, rs⟩ : PP R) (first p) = first p :=
      saturated_of_mem (le_refl _) hp.first_lt_last.le
    rw [e]
    have hb : 2 ≤ p.breaks.length := by have := hp.segments; omega
    have hrs : 0 < rs.length := hv.segments
    have hf : first p = p.breaks.headD 0 := rfl
    have hinc := hp.increasing
    dsimp only
    match hbs : p.breaks, hb, rs, hrs, s3 with
    | b0 :: b1 :: bs, _, r0 :: rs', _, s3 =>
      have hf : first p = b0 := by rw [hf, hbs]; rfl
      rw [hbs] at hinc
      have hlt : b0 < b1 := (List.pairwise_cons.1 hinc).1 b1 (by simp)
      rw [hf, evalPieces, if_pos (.inr hlt), sub_self, s3 r0 rs' rfl]
  · rw [hv.evalDerivative, hp.evalDerivative]
    exact congrArg _ (evalPieces_congr 1 0 _ _ s1)
  · obtain ⟨ha1, ha2⟩ := List.getElem?_eq_some_iff.1 ha
    obtain ⟨hb1, hb2⟩ := List.getElem?_eq_some_iff.1 hb
    obtain ⟨hq1, hq2⟩ := List.getElem?_eq_some_iff.1 hq
    obtain ⟨hr1, hr2⟩ := List.getElem?_eq_some_iff.1 hq'
    rw [evaluateUnivariate_ok _ _ _ (s2 q (hq2 ▸ List.getElem_mem hq1)),
      evaluateUnivariate_ok _ _ _ (s2 q' (hr2 ▸ List.getElem_mem hr1))]
    have := s4 i hr1 hb1
    dsimp only at ha2 hb2 hq2 hr2
    rw [ha2, hb2, hq2, hr2] at this
    rw [this]

example : ([0, 1, 3] : List ℚ).map (fun t => (twoPieces.integral 10).bind (·.evalDerivative t 0)) =
    [.ok 10, .ok (23/2), .ok (145/6)] := by decide +kernel

/-- C100: the integral of a step function is refused, because a constant polynomial has no variable. -/
theorem integral_of_stairs : stairs.bind (·.integral 0) = .error .throws := by decide +kernel

/-- C100. Sums, differences and products of two trajectories with the same breaks, in the same variable, have the
sums, differences and products of the values. -/
theorem arithmetic_values (p q : PP R) (hp : Valid p) (hq : Valid q) (hb : p.breaks = q.breaks) (v : Nat)
    (hsp : SameVariable v p) (hsq : SameVariable v q) (t x y : R) (hx : p.evalDerivative t 0 = .ok x)
    (hy : q.evalDerivative t 0 = .ok y) :
    (p.add q).bind (·.evalDerivative t 0) = .ok (x + y) ∧ (p.sub q).bind (·.evalDerivative t 0) = .ok (x - y) ∧
      (p.mul q).bind (·.evalDerivative t 0) = .ok (x * y) := by
  have hlen : p.polynomials.length = q.polynomials.length := by
    have := hp.lengths; have := hq.lengths; rw [hb] at *; omega
  have hte : p.timesEqual q = true := by
    unfold PP.timesEqual
    rw [hb]
    simp only [beq_self_eq_true, Bool.true_and, List.all_eq_true, decide_eq_true_eq]
    intro b hb
    have : b.1 = b.2 := by
      rw [List.zip_eq_zipWith, List.zipWith_self] at hb
      obtain ⟨c, -, rfl⟩ := List.mem_map.1 hb
      rfl
    rw [this, sub_self, abs_zero]
    exact not_lt.2 epsilonTime_pos.le
  have hsat : saturated q t = saturated p t := by unfold saturated first last; rw [hb]
  rw [hp.evalDerivative] at hx
  rw [hq.evalDerivative, hsat, ← hb] at hy
  have hx := Except.ok.inj hx
  have hy := Except.ok.inj hy
  have key : ∀ (op : Poly.Polynomial R → Poly.Polynomial R → Poly.Polynomial R) (f : R → R → R),
      (∀ a b : Poly.Polynomial R, InOne v a → InOne v b → ((op a b).isUnivariate = true ∧ Poly.Spec.InVariable v (op a b)) ∧
        ∀ x : R, valueAt (fun _ => x) (op a b).monomials = f (valueAt (fun _ => x) a.monomials) (valueAt (fun _ => x) b.monomials)) →
      (p.zipWith op q).bind (·.evalDerivative t 0) = .ok (f x y) := by
    intro op f hop
    unfold PP.zipWith throwUnless
    rw [if_pos hte]
    show (⟨p.breaks, List.zipWith op p.polynomials q.polynomials⟩ : PP R).evalDerivative t 0 = _
    have hv := hp.of_polynomials (qs := List.zipWith op p.polynomials q.polynomials) (by simp [hlen]) fun r hr => by
      obtain ⟨i, hi, rfl⟩ := List.mem_iff_getElem.1 hr
      rw [List.getElem_zipWith]
      exact (hop _ _ (hsp _ (List.getElem_mem _)) (hsq _ (List.getElem_mem _))).1.1
    rw [hv.evalDerivative]
    dsimp only
    rw [evalPieces_zipWith op f _ _ _ _ hp.lengths hp.segments hlen fun a ha b hb x => ?_]
    · have : saturated (⟨p.breaks, List.zipWith op p.polynomials q.polynomials⟩ : PP R) t = saturated p t := rfl
      rw [this, hx, hy]
    · obtain ⟨⟨-, k2⟩, k3⟩ := hop a b (hsp a ha) (hsq b hb)
      rw [derivAt_zero_eq k2 (fun _ => x), k3, (hsp a ha).value, (hsq b hb).value]
  refine ⟨key Poly.add (· + ·) fun a b ha hb => ⟨?_, fun x => add_value _ ha.good hb.good⟩,
    key Poly.sub (· - ·) fun a b ha hb => ⟨?_, fun x => sub_value _ ha.good hb.good⟩,
    key Poly.mul (· * ·) fun a b ha hb => ⟨?_, fun x => mul_value _ ha.good⟩⟩
  · exact makeUnique_keeps v _ (fun m hm => (List.mem_append.1 hm).elim (ha.inVariable m) (hb.inVariable m)) ha.univariate
  · refine makeUnique_keeps v _ (fun m hm => ?_) ha.univariate
    rcases List.mem_append.1 hm with hm | hm
    · exact ha.inVariable m hm
    · obtain ⟨n, hn, rfl⟩ := List.mem_map.1 hm
      exact hb.inVariable n hn
  · exact mul_keeps ⟨ha.univariate, ha.inVariable⟩ hb.inVariable

example : (twoPieces.add twoPieces).bind (·.evalDerivative 2 0) = .ok 12 ∧
    (twoPieces.mul twoPieces).bind (·.evalDerivative 2 0) = .ok 36 := by decide +kernel

/-- C100. Trajectories with another number of breaks, or with breaks further apart than the tolerance, are refused. -/
theorem arithmetic_refuses (op : Poly.Polynomial R → Poly.Polynomial R → Poly.Polynomial R) (p q : PP R)
    (h : p.breaks.length ≠ q.breaks.length ∨ ∃ (i : Nat) (a b : R), p.breaks[i]? = some a ∧ q.breaks[i]? = some b ∧ epsilonTime < |a - b|) :
    p.zipWith op q = .error .throws := by
  have : p.timesEqual q = false := by
    unfold PP.timesEqual
    rw [Bool.and_eq_false_iff]
    rcases h with h | ⟨i, a, b, ha, hb, h⟩
    · left; simpa using h
    · right
      rw [List.all_eq_false]
      refine ⟨(a, b), ?_, by simpa using h⟩
      refine List.mem_iff_getElem?.2 ⟨i, ?_⟩
      rw [List.getElem?_zip_eq_some]
      exact ⟨ha, hb⟩
  unfold PP.zipWith throwUnless
  rw [this]; rfl

example : twoPieces.add nextPiece = .error .throws := by decide +kernel

end Maliput.Props
