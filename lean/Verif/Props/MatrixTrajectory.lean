import Verif.Lemmas.MatrixTrajectory
import Mathlib.Algebra.Order.Ring.Rat
import Mathlib.Algebra.Field.Rat

set_option autoImplicit false
set_option linter.unusedSectionVars false

/-! C150: trajectories of matrices. -/
namespace Maliput.Props

open Maliput Poly Piecewise
open Maliput.Piecewise.Spec (Shape Shaped entry EntriesOf)

section
variable {R : Type} [Field R] [LinearOrder R] {rows cols : Nat} {p q : MP R}

/-- A matrix of polynomials with two rows and two columns, from the coefficients of its entries, column by column. -/
def squareMatrix (a b c d : List ℚ) : Mat (Polynomial ℚ) :=
  ⟨2, 2, [ofCoefficients tVar a, ofCoefficients tVar b, ofCoefficients tVar c, ofCoefficients tVar d]⟩

/-- Two segments of matrices with two rows and two columns. -/
def twoMatrices : MP ℚ := ⟨[0, 1, 3], [squareMatrix [1, 1] [2, 1] [0, 0, 1] [0, 3], squareMatrix [2, 0, 1] [3, 5] [1, 1] [4, 1]]⟩

example : Shaped 2 2 twoMatrices := by unfold Shaped Shape; decide +kernel
example : (twoMatrices.evalDerivative 2 0) = .ok ⟨2, 2, [3, 8, 2, 5]⟩ := by decide +kernel

/-- **C150.** The value of a trajectory of matrices, and each derivative, has in each entry what the trajectory of that entry
has. -/
theorem matrix_trajectory_value (h : Shaped rows cols p) (t : R) (order : Nat) {m : Mat R} (hm : p.evalDerivative t order = .ok m) :
    Shape rows cols m ∧ ∀ r c, r < rows → c < cols → (entry p r c).bind (·.evalDerivative t order) = m.get r c := by
  obtain ⟨h1, h2⟩ := evalDerivative_ent h t order hm
  exact ⟨h1, fun r c hr hc => by rw [entry_eq h hr hc]; exact h2 r c hr hc⟩

/-- **C150.** A trajectory of matrices has a value wherever all of its entries have one. -/
theorem matrix_trajectory_value_total (h : Shaped rows cols p) (hr : 0 < rows) (hc : 0 < cols) (t : R) (order : Nat)
    (hne : p.matrices ≠ []) (he : ∀ r c, r < rows → c < cols → ∃ x, (entry p r c).bind (·.evalDerivative t order) = .ok x) :
    ∃ m, p.evalDerivative t order = .ok m := by
  refine evalDerivative_total h hr hc t order hne fun r c hr hc => ?_
  obtain ⟨x, hx⟩ := he r c hr hc
  rw [entry_eq h hr hc] at hx
  exact ⟨x, hx⟩

example (r c : Nat) (hr : r < 2) (hc : c < 2) : ∃ x, (entry twoMatrices r c).bind (·.evalDerivative 2 0) = .ok x := by
  have : ∀ r < 2, ∀ c < 2, ((entry twoMatrices r c).bind (·.evalDerivative 2 0)).isOk = true := by decide +kernel
  have := this r hr c hc
  cases e : (entry twoMatrices r c).bind (·.evalDerivative 2 0) with
  | ok x => exact ⟨x, rfl⟩
  | error _ => rw [e] at this; cases this

/-- **C150.** `scalarValue` of an entry is that of the trajectory of the entry. -/
theorem matrix_trajectory_scalarValue (h : Shaped rows cols p) (t : R) {r c : Nat} (hr : r < rows) (hc : c < cols) :
    p.scalarValue t r c = (entry p r c).bind (·.scalarValue t) := by
  rw [entry_eq h hr hc]
  simp only [MP.scalarValue, Except.bind, PP.scalarValue, ent_segmentIndex, bind]
  cases p.times.segmentIndex t with
  | error e => rfl
  | ok i => exact evaluateSegment_eq h hr hc i t 0

theorem entriesOf_ent (h : Shaped rows cols p) (hq : Shaped rows cols q) {op : Nat → Nat → PP R → Except Err (PP R)}
    (e : ∀ r c, r < rows → c < cols → op r c (p.ent r c) = .ok (q.ent r c)) : EntriesOf rows cols p op q :=
  ⟨hq, fun r c hr hc => by rw [entry_eq h hr hc, entry_eq hq hr hc]; exact e r c hr hc⟩

/-- **C150.** The derivative of a trajectory of matrices is the derivative of each entry. -/
theorem matrix_trajectory_derivative (h : Shaped rows cols p) (order : Nat) (hq : p.derivative order = .ok q) :
    EntriesOf rows cols p (fun _ _ e => e.derivative order) q := by
  unfold MP.derivative at hq
  split at hq
  · rename_i h0
    obtain rfl := Except.ok.inj hq
    exact entriesOf_ent h h fun r c _ _ => by simp only [PP.derivative, if_pos h0]; rfl
  · rename_i h0
    simp only [bind_ok, pure_ok] at hq
    obtain ⟨ns, hns, rfl⟩ := hq
    obtain ⟨h1, h2⟩ := changedAll_ok h h hns
    refine entriesOf_ent h (q := ⟨_, ns⟩) h1 fun r c hr hc => ?_
    have := h2 r c hr hc
    simp only [PP.derivative, if_neg h0, MP.ent, this, bind, Except.bind, pure, Except.pure]

example : (twoMatrices.derivative 1).isOk = true := by decide +kernel

/-- **C150.** The integral of a trajectory of matrices is the integral of each entry, from the value at the start for that
entry. -/
theorem matrix_trajectory_integral (h : Shaped rows cols p) (hl : p.breaks.length = p.matrices.length + 1) (hne : p.matrices ≠ [])
    {value : Mat R} (hq : p.integral value = .ok q) :
    Shaped rows cols q ∧ ∀ r c x, r < rows → c < cols → value.get r c = .ok x → (entry p r c).bind (·.integral x) = entry q r c := by
  simp only [MP.integral, bind_ok, pure_ok] at hq
  obtain ⟨ns, hns, rfl⟩ := hq
  obtain ⟨h1, h2⟩ := integralMatrices_ok h hl h hns
  refine ⟨h1, fun r c x hr hc hx => ?_⟩
  rw [entry_eq h hr hc, entry_eq (p := ⟨p.breaks, ns⟩) h1 hr hc]
  have := h2 r c x hr hc fun _ => hx
  have hne' : ¬ p.matrices.map (fun m => m.at r c) = [] := by simpa using hne
  simp only [Except.bind, PP.integral, MP.ent, if_neg hne', this, bind, pure, Except.pure]

example : (twoMatrices.integral ⟨2, 2, [0, 1, 2, 3]⟩).isOk = true := by decide +kernel

/-- **C150.** Sums and differences of trajectories of matrices are those of each entry. -/
theorem matrix_trajectory_add_sub {k : MP R} (h : Shaped rows cols p) (hq : Shaped rows cols q) :
    (p.add q = .ok k → Shaped rows cols k ∧ ∀ r c, r < rows → c < cols →
      (entry p r c).bind (fun a => (entry q r c).bind a.add) = entry k r c) ∧
    (p.sub q = .ok k → Shaped rows cols k ∧ ∀ r c, r < rows → c < cols →
      (entry p r c).bind (fun a => (entry q r c).bind a.sub) = entry k r c) := by
  have key : ∀ op, p.zipWith op q = .ok k → Shaped rows cols k ∧ ∀ r c, r < rows → c < cols →
      (entry p r c).bind (fun a => (entry q r c).bind (a.zipWith op)) = entry k r c := by
    intro op e
    simp only [MP.zipWith, bind_ok, throwUnless_ok, pure_ok] at e
    obtain ⟨_, ht, ks, hks, rfl⟩ := e
    obtain ⟨h1, h2⟩ := zipWith_ok op h hq hks
    refine ⟨h1, fun r c hr hc => ?_⟩
    rw [entry_eq h hr hc, entry_eq hq hr hc, entry_eq (p := ⟨p.breaks, ks⟩) h1 hr hc]
    have ht' : throwUnless ((p.ent r c).timesEqual (q.ent r c)) = .ok () := throwUnless_ok.2 ht
    simp only [Except.bind, PP.zipWith, ht']
    simp only [MP.ent, h2 r c hr hc, bind, Except.bind, pure, Except.pure]
  exact ⟨key _, key _⟩

example : (twoMatrices.add twoMatrices).isOk = true := by decide +kernel

/-- **C150.** A trajectory of matrices is followed by another one as each entry is. -/
theorem matrix_trajectory_concatenate {k : MP R} (h : Shaped rows cols p) (hq : Shaped rows cols q) (e : p.concatenate q = .ok k) :
    Shaped rows cols k ∧ ∀ r c, r < rows → c < cols → (entry p r c).bind (fun a => (entry q r c).bind a.concatenate) = entry k r c := by
  unfold MP.concatenate at e
  split at e
  · rename_i hne
    simp only [bind_ok, throwUnless_ok, pure_ok] at e
    obtain ⟨r1, -, r2, -, -, -, c1, -, c2, -, -, -, s, hs, t, ht, t', ht', -, hlt, rfl⟩ := e
    have hk : Shaped rows cols (⟨p.breaks.dropLast ++ q.breaks.map (· - (s - t)), p.matrices ++ q.matrices⟩ : MP R) := by
      intro m hm
      rcases List.mem_append.1 hm with hm | hm
      · exact h m hm
      · exact hq m hm
    refine ⟨hk, fun r c hr hc => ?_⟩
    rw [entry_eq h hr hc, entry_eq hq hr hc, entry_eq hk hr hc]
    have hne' : (p.ent r c).polynomials ≠ [] := by simpa [MP.ent] using hne
    rw [ht] at ht'
    obtain rfl := Except.ok.inj ht'
    simp only [Except.bind, PP.concatenate, if_pos hne', ent_startTime, ent_endTime, hs, ht, bind, throwUnless_pos (of_decide_eq_true hlt)]
    simp only [MP.ent, List.map_append, pure, Except.pure]
  · rename_i hne
    obtain rfl := Except.ok.inj e
    refine ⟨hq, fun r c hr hc => ?_⟩
    rw [entry_eq h hr hc, entry_eq hq hr hc]
    have hne' : ¬ (p.ent r c).polynomials ≠ [] := by simpa [MP.ent] using hne
    simp only [Except.bind, PP.concatenate, if_neg hne', pure, Except.pure]

/-- **C150.** Trajectories of matrices of different sizes are not joined. -/
theorem matrix_trajectory_concatenate_throws {rows' cols' : Nat} (h : Shaped rows cols p) (hq : Shaped rows' cols' q)
    (hp : p.matrices ≠ []) (hq' : q.matrices ≠ []) (hne : ¬(rows = rows' ∧ cols = cols')) : p.concatenate q = .error .throws := by
  unfold MP.concatenate
  rw [if_pos hp]
  simp only [shaped_rows_ok h hp, shaped_cols_ok h hp, shaped_rows_ok hq hq', shaped_cols_ok hq hq', bind, Except.bind]
  by_cases h1 : rows = rows'
  · rw [throwUnless_pos h1]
    dsimp only
    rw [throwUnless_neg fun h2 => hne ⟨h1, h2⟩]
  · rw [throwUnless_neg h1]

example : (twoMatrices.concatenate (twoMatrices.shiftRight 3)).isOk = true := by decide +kernel

/-- **C150.** A segment is appended to a trajectory of matrices as it is to each entry. -/
theorem matrix_trajectory_append (h : Shaped rows cols p) (time : R) {y yd : Mat R} (hy : Shape rows cols y) (hyd : Shape rows cols yd) :
    (p.appendHermite time y yd = .ok q → Shaped rows cols q ∧ ∀ r c a b, r < rows → c < cols → y.get r c = .ok a →
      yd.get r c = .ok b → (entry p r c).bind (·.appendHermite time a b) = entry q r c) ∧
    (p.appendFirstOrder time y = .ok q → Shaped rows cols q ∧ ∀ r c a, r < rows → c < cols → y.get r c = .ok a →
      (entry p r c).bind (·.appendFirstOrder time a) = entry q r c) := by
  have hlen : ∀ r c, (p.ent r c).polynomials.length = p.matrices.length := fun r c => by simp [MP.ent]
  constructor
  · intro e
    unfold MP.appendHermite at e
    split at e
    · cases e
    rename_i hne
    simp only [bind_ok] at e
    obtain ⟨t, ht, e⟩ := e
    split at e
    · cases e
    rename_i hlt
    simp only [shaped_rows_ok h hne, shaped_cols_ok h hne, bind, Except.bind] at e
    rw [if_neg (by simp [hy.1, hy.2.1, hyd.1, hyd.2.1])] at e
    split at e
    · cases e
    rename_i m hm
    obtain rfl := Except.ok.inj e
    obtain ⟨h1, h2⟩ := generate_ok hm
    have hk : Shaped rows cols (⟨p.breaks ++ [time], p.matrices ++ [m]⟩ : MP R) := by
      intro n hn
      rcases List.mem_append.1 hn with hn | hn
      · exact h n hn
      · rw [List.mem_singleton.1 hn]; exact h1
    refine ⟨hk, fun r c a b hr hc ha hb => ?_⟩
    rw [entry_eq h hr hc, entry_eq hk hr hc]
    have hne' : ¬ (p.ent r c).polynomials = [] := by simpa [MP.ent] using hne
    have hx := h2 r c hr hc
    rw [evaluateSegment_eq h hr hc, evaluateSegment_eq h hr hc, ha, hb] at hx
    simp only [Except.bind, PP.appendHermite, if_neg hne', ent_endTime, ht, bind, if_neg hlt, hlen]
    cases e1 : (p.ent r c).evaluateSegment (p.matrices.length - 1) t 0 with
    | error _ => rw [e1] at hx; cases hx
    | ok start =>
      cases e2 : (p.ent r c).evaluateSegment (p.matrices.length - 1) t 1 with
      | error _ => rw [e1, e2] at hx; cases hx
      | ok startDot =>
        rw [e1, e2] at hx
        dsimp only at hx ⊢
        cases e3 : cubicCoefficients (time - t) start a startDot b with
        | error _ => rw [e3] at hx; cases hx
        | ok cs =>
          rw [e3] at hx
          simp only [MP.ent, List.map_append, List.map_cons, List.map_nil, pure, Except.pure, ← Except.ok.inj hx]
  · intro e
    unfold MP.appendFirstOrder at e
    split at e
    · cases e
    rename_i hne
    simp only [bind_ok] at e
    obtain ⟨t, ht, e⟩ := e
    split at e
    · cases e
    rename_i hlt
    simp only [shaped_rows_ok h hne, shaped_cols_ok h hne, bind, Except.bind] at e
    rw [if_neg (by simp [hy.1, hy.2.1])] at e
    split at e
    · cases e
    rename_i m hm
    obtain rfl := Except.ok.inj e
    obtain ⟨h1, h2⟩ := generate_ok hm
    have hk : Shaped rows cols (⟨p.breaks ++ [time], p.matrices ++ [m]⟩ : MP R) := by
      intro n hn
      rcases List.mem_append.1 hn with hn | hn
      · exact h n hn
      · rw [List.mem_singleton.1 hn]; exact h1
    refine ⟨hk, fun r c a hr hc ha => ?_⟩
    rw [entry_eq h hr hc, entry_eq hk hr hc]
    have hne' : ¬ (p.ent r c).polynomials = [] := by simpa [MP.ent] using hne
    have hx := h2 r c hr hc
    rw [evaluateSegment_eq h hr hc, ha] at hx
    simp only [Except.bind, PP.appendFirstOrder, if_neg hne', ent_endTime, ht, bind, if_neg hlt, hlen]
    cases e1 : (p.ent r c).evaluateSegment (p.matrices.length - 1) t 0 with
    | error _ => rw [e1] at hx; cases hx
    | ok start =>
      rw [e1] at hx
      simp only [MP.ent, List.map_append, List.map_cons, List.map_nil, pure, Except.pure, ← Except.ok.inj hx]

example : (twoMatrices.appendHermite 4 ⟨2, 2, [1, 2, 3, 4]⟩ ⟨2, 2, [0, 1, 0, 1]⟩).isOk = true ∧
    (twoMatrices.appendFirstOrder 4 ⟨2, 2, [1, 2, 3, 4]⟩).isOk = true := by decide +kernel

/-- **C150.** The last segment is removed, and time is shifted, as in each entry. -/
theorem matrix_trajectory_remove_shift (h : Shaped rows cols p) :
    (p.removeFinal = .ok q → EntriesOf rows cols p (fun _ _ e => e.removeFinal) q) ∧
      ∀ offset, EntriesOf rows cols p (fun _ _ e => .ok (e.shiftRight offset)) (p.shiftRight offset) := by
  refine ⟨fun e => ?_, fun offset => entriesOf_ent (q := p.shiftRight offset) h h fun r c _ _ => rfl⟩
  unfold MP.removeFinal at e
  split at e
  · cases e
  · rename_i hne
    obtain rfl := Except.ok.inj e
    refine entriesOf_ent h (fun m hm => h m ((List.dropLast_sublist _).mem hm)) fun r c _ _ => ?_
    have hne' : ¬ (p.ent r c).polynomials = [] := by simpa [MP.ent] using hne
    unfold PP.removeFinal
    rw [if_neg hne']
    simp only [MP.ent, List.map_dropLast, pure, Except.pure]

/-- **C150.** Time is reversed and scaled as in each entry. -/
theorem matrix_trajectory_reverse_scale (h : Shaped rows cols p) :
    (p.reverseTime = .ok q → EntriesOf rows cols p (fun _ _ e => e.reverseTime) q) ∧
      ∀ scale, p.scaleTime scale = .ok q → EntriesOf rows cols p (fun _ _ e => e.scaleTime scale) q := by
  refine ⟨fun e => ?_, fun scale e => ?_⟩
  · simp only [MP.reverseTime, bind_ok, pure_ok] at e
    obtain ⟨ns, hns, rfl⟩ := e
    obtain ⟨h1, h2⟩ := reverseMatrices_ok h h hns
    refine entriesOf_ent h (fun m hm => h1 m (List.mem_reverse.1 hm)) fun r c hr hc => ?_
    simp only [PP.reverseTime, MP.ent, h2 r c hr hc, bind, Except.bind, pure, Except.pure, List.map_reverse]
  · unfold MP.scaleTime at e
    split at e
    · cases e
    · rename_i h0
      simp only [bind_ok, pure_ok] at e
      obtain ⟨ns, hns, rfl⟩ := e
      obtain ⟨h1, h2⟩ := changedAll_ok h h hns
      refine entriesOf_ent h (q := ⟨_, ns⟩) h1 fun r c hr hc => ?_
      simp only [PP.scaleTime, if_neg h0, MP.ent, h2 r c hr hc, bind, Except.bind, pure, Except.pure]

example : (twoMatrices.reverseTime).isOk = true ∧ (twoMatrices.scaleTime 2).isOk = true := by decide +kernel

/-- **C150.** Segments are taken from a trajectory of matrices as from each entry. -/
theorem matrix_trajectory_slice (h : Shaped rows cols p) (start count : Nat) (e : p.slice start count = .ok q) :
    EntriesOf rows cols p (fun _ _ e => e.slice start count) q := by
  simp only [MP.slice, bind_ok, throwUnless_ok] at e
  obtain ⟨_, h1, _, h2, e⟩ := e
  obtain ⟨rfl, hb⟩ := matrixMake_ok e
  refine entriesOf_ent h (fun m hm => h m (List.mem_of_mem_drop (List.mem_of_mem_take hm))) fun r c _ _ => ?_
  have e1 : throwUnless (decide (start < (p.ent r c).segments)) = .ok () := throwUnless_pos (of_decide_eq_true h1)
  have e2 : throwUnless (decide (1 ≤ start + count ∧ start + count - 1 < (p.ent r c).segments)) = .ok () :=
    throwUnless_pos (P := 1 ≤ start + count ∧ start + count - 1 < p.times.segments) (of_decide_eq_true h2)
  unfold PP.slice
  rw [e1, e2]
  simp only [bind, Except.bind, Piecewise.make, MP.ent, hb, if_true, pure, Except.pure, List.map_take, List.map_drop]

example : (twoMatrices.slice 1 1).isOk = true := by decide +kernel

/-- **C150.** A block of a trajectory has the entries of the trajectory that lie in the block; blocks outside of the
trajectory abort. -/
theorem matrix_trajectory_block (h : Shaped rows cols p) (hne : p.matrices ≠ []) (hb : breaksApart p.breaks = true) (r0 c0 n k : Int) :
    (0 ≤ r0 → r0 < rows → 0 ≤ c0 → c0 < cols → 0 ≤ n → r0 + n ≤ rows → 0 ≤ k → c0 + k ≤ cols →
      ∃ q, p.block r0 c0 n k = .ok q ∧ Shaped n.toNat k.toNat q ∧ ∀ r c : Nat, (r : Int) < n → (c : Int) < k →
        entry q r c = entry p (r0.toNat + r) (c0.toNat + c)) ∧
    (¬(0 ≤ r0 ∧ r0 < rows ∧ 0 ≤ c0 ∧ c0 < cols ∧ 0 ≤ n ∧ r0 + n ≤ rows ∧ 0 ≤ k ∧ c0 + k ≤ cols) →
      p.block r0 c0 n k = .error .aborts) := by
  constructor
  · intro h1 h2 h3 h4 h5 h6 h7 h8
    have hall : ∀ ms : List (Mat (Polynomial R)), (∀ m ∈ ms, Shape rows cols m) → ∃ ns,
        (ms.mapM fun m => m.block r0 c0 n k) = .ok ns ∧ (∀ m ∈ ns, Shape n.toNat k.toNat m) ∧ ∀ r c : Nat, (r : Int) < n → (c : Int) < k →
          (ns.map fun m => m.at r c) = ms.map fun m => m.at (r0.toNat + r) (c0.toNat + c) := by
      intro ms
      induction ms with
      | nil => exact fun _ => ⟨[], rfl, by simp, fun _ _ _ _ => rfl⟩
      | cons m ms ih =>
        intro hms
        obtain ⟨ns, e1, e2, e3⟩ := ih fun m' hm' => hms m' (by simp [hm'])
        have hm := hms m (by simp)
        obtain ⟨b, hb⟩ := generate_total (rows := n.toNat) (cols := k.toNat) (f := fun r c => m.get (r0.toNat + r) (c0.toNat + c))
          fun r c hr hc => ⟨_, Mat.get_eq hm (by omega) (by omega)⟩
        obtain ⟨f1, f2⟩ := generate_ok hb
        refine ⟨b :: ns, mapM_cons_ok.2 ⟨b, ns, hb, e1, rfl⟩, fun m' hm' => ?_, fun r c hr hc => ?_⟩
        · rcases List.mem_cons.1 hm' with rfl | hm'
          · exact f1
          · exact e2 m' hm'
        · have := f2 r c (by omega) (by omega)
          rw [Mat.get_eq hm (by omega) (by omega)] at this
          rw [List.map_cons, List.map_cons, e3 r c hr hc, Except.ok.inj this]
    obtain ⟨ns, e1, e2, e3⟩ := hall p.matrices h
    have hsh : Shaped n.toNat k.toNat (⟨p.breaks, ns⟩ : MP R) := e2
    refine ⟨⟨p.breaks, ns⟩, ?_, hsh, fun r c hr hc => ?_⟩
    · unfold MP.block
      simp only [shaped_rows_ok h hne, shaped_cols_ok h hne, bind, Except.bind]
      rw [if_neg (by omega), if_neg (by omega), if_neg (by omega), if_neg (by omega), e1]
      simp only [MP.make, hb, not_true_eq_false, if_false]
      split
      · rfl
      · rename_i m ms
        rw [if_pos]
        · rfl
        · have hm := e2 m (by simp)
          rw [List.all_eq_true]
          intro m' hm'
          have := e2 m' (by simp [hm'])
          simp [this.1, this.2.1, hm.1, hm.2.1]
    · rw [entry_eq hsh (by omega) (by omega), entry_eq h (by omega) (by omega)]
      simp only [MP.ent, e3 r c hr hc]
  · intro hout
    unfold MP.block
    simp only [shaped_rows_ok h hne, shaped_cols_ok h hne, bind, Except.bind]
    by_cases h1 : 0 ≤ r0 ∧ r0 < rows
    · rw [if_neg (not_not.2 h1)]
      by_cases h2 : 0 ≤ c0 ∧ c0 < cols
      · rw [if_neg (not_not.2 h2)]
        by_cases h3 : 0 ≤ n ∧ r0 + n ≤ rows
        · rw [if_neg (not_not.2 h3), if_pos (by omega)]
        · rw [if_pos h3]
      · rw [if_pos h2]
    · rw [if_pos h1]

example : (twoMatrices.block 1 0 1 2).bind (·.evalDerivative 2 0) = .ok ⟨1, 2, [8, 5]⟩ ∧ breaksApart twoMatrices.breaks = true := by
  decide +kernel

/-- **C150.** Reshaping a trajectory keeps the entries, counted column by column. -/
theorem matrix_trajectory_reshape (h : Shaped rows cols p) (hne : p.matrices ≠ []) (n k : Nat) :
    (n * k = rows * cols → ∃ q, p.reshape n k = .ok q ∧ Shaped n k q ∧ ∀ r c r' c', r < rows → c < cols → r' < n → c' < k →
      c * rows + r = c' * n + r' → entry q r' c' = entry p r c) ∧
    (n * k ≠ rows * cols → p.reshape n k = .error .aborts) := by
  constructor
  · intro hnk
    have hsh : Shaped n k (⟨p.breaks, p.matrices.map fun m => ⟨n, k, m.data⟩⟩ : MP R) := by
      intro m hm
      obtain ⟨m0, hm0, rfl⟩ := List.mem_map.1 hm
      exact ⟨rfl, rfl, (h m0 hm0).2.2.trans hnk.symm⟩
    refine ⟨⟨p.breaks, p.matrices.map fun m => ⟨n, k, m.data⟩⟩, ?_, hsh, fun r c r' c' hr hc hr' hc' he => ?_⟩
    · unfold MP.reshape
      simp only [shaped_rows_ok h hne, shaped_cols_ok h hne, bind, Except.bind]
      rw [if_neg (by rw [not_not]; exact_mod_cast hnk), if_neg (by omega)]
      rfl
    · rw [entry_eq h hr hc, entry_eq hsh hr' hc']
      simp only [MP.ent, List.map_map, Except.ok.injEq, PP.mk.injEq, true_and]
      refine List.map_congr_left fun m hm => ?_
      simp only [Function.comp_apply, Mat.at, (h m hm).1, he]
  · intro hnk
    unfold MP.reshape
    simp only [shaped_rows_ok h hne, shaped_cols_ok h hne, bind, Except.bind]
    rw [if_pos (by intro e; exact hnk (by exact_mod_cast e))]

example : (twoMatrices.reshape 1 4).bind (·.evalDerivative 2 0) = .ok ⟨1, 4, [3, 8, 2, 5]⟩ := by decide +kernel

/-- **C150, witness.** Reshaping to negative numbers of rows and columns is not refused. -/
theorem matrix_trajectory_reshape_negative (h : Shaped rows cols p) (hne : p.matrices ≠ []) (hr : 0 < rows) :
    p.reshape (-rows) (-cols) = .error .ub := by
  unfold MP.reshape
  simp only [shaped_rows_ok h hne, shaped_cols_ok h hne, bind, Except.bind]
  rw [if_neg (by simp), if_pos (Or.inl (by omega))]

/-- **C150.** Setting a block replaces the entries of the segment that lie in the block, and no others. -/
theorem matrix_trajectory_setBlock (h : Shaped rows cols p) {m : Mat (Polynomial R)} {n k : Nat} (hm : Shape n k m) (i r0 c0 : Nat)
    (e : p.setBlock m i r0 c0 = .ok q) :
    r0 + n ≤ rows ∧ c0 + k ≤ cols ∧ Shaped rows cols q ∧ q.breaks = p.breaks ∧ ∀ j r c, j < p.times.segments → r < rows → c < cols →
      q.getPolynomial j r c =
        if j = i ∧ r0 ≤ r ∧ r < r0 + n ∧ c0 ≤ c ∧ c < c0 + k then m.get (r - r0) (c - c0) else p.getPolynomial j r c := by
  simp only [MP.setBlock, bind_ok, pure_ok, throwUnless_ok] at e
  obtain ⟨_, hseg, m0, hm0, b, hb, rfl⟩ := e
  simp only [Int.toNat_natCast] at hm0 hb ⊢
  have hm0' : p.matrices[i]? = some m0 := by
    unfold nth at hm0
    split at hm0
    · rename_i e; rw [e, Except.ok.inj hm0]
    · cases hm0
  have hs0 := h m0 (List.mem_of_getElem? hm0')
  unfold Mat.setBlock at hb
  split at hb
  · rename_i hin
    rw [hm.1, hm.2.1, hs0.1, hs0.2.1] at hin
    rw [hm.1, hm.2.1, hs0.1, hs0.2.1] at hb
    obtain ⟨h1, h2⟩ := generate_ok hb
    have hsh : Shaped rows cols (⟨p.breaks, p.matrices.set i b⟩ : MP R) := by
      intro x hx
      rcases List.mem_or_eq_of_mem_set hx with hx | hx
      · exact h x hx
      · rw [hx]; exact h1
    refine ⟨by omega, by omega, hsh, trivial, fun j r c hj hr hc => ?_⟩
    have hil : i < p.matrices.length := (List.getElem?_eq_some_iff.1 hm0').1
    have hj' : throwUnless (decide (j < p.times.segments)) = .ok () := throwUnless_pos hj
    have hj'' : throwUnless (decide (j < (⟨p.breaks, p.matrices.set i b⟩ : MP R).times.segments)) = .ok () := throwUnless_pos hj
    simp only [MP.getPolynomial, hj', hj'', bind, Except.bind]
    by_cases hji : j = i
    · subst hji
      have hset : nth (p.matrices.set j b) j = .ok b := by simp [nth, hil]
      have hold : nth p.matrices j = .ok m0 := hm0
      rw [hset, hold]
      dsimp only
      rw [Mat.get_eq h1 hr hc, ← h2 r c hr hc]
      simp only [Int.toNat_natCast, true_and]
      by_cases hin' : r0 ≤ r ∧ r < r0 + n ∧ c0 ≤ c ∧ c < c0 + k
      · rw [if_pos hin', if_pos (by omega)]
      · rw [if_neg hin', if_neg (by omega)]
    · have hset : nth (p.matrices.set i b) j = nth p.matrices j := by
        simp only [nth, List.getElem?_set_ne (Ne.symm hji)]
      rw [hset, if_neg (fun hh => hji hh.1)]
  · cases hb

example : (twoMatrices.setBlock ⟨1, 1, [ofCoefficients tVar [7]]⟩ 1 0 1).bind (·.evalDerivative 2 0) = .ok ⟨2, 2, [3, 8, 7, 5]⟩ := by
  decide +kernel

/-- **C150.** A trajectory made from polynomials has one entry, and that is the trajectory of the polynomials. -/
theorem matrix_trajectory_scalar (s : PP R) : Shaped 1 1 (MP.ofScalar s) ∧ entry (MP.ofScalar s) 0 0 = .ok s := by
  have h : Shaped 1 1 (MP.ofScalar s) := by
    intro m hm
    obtain ⟨q, _, rfl⟩ := List.mem_map.1 hm
    exact ⟨rfl, rfl, rfl⟩
  refine ⟨h, ?_⟩
  rw [entry_eq h (by omega) (by omega)]
  congr 1
  cases s with
  | mk bs qs =>
    simp only [MP.ent, MP.ofScalar, List.map_map]
    congr 1
    exact List.map_id' qs

/-- **C150.** Which polynomials can be asked for: those of the segments there are, an exception otherwise; an entry that the matrices do not
have is not checked for. -/
theorem matrix_trajectory_range (h : Shaped rows cols p) (hl : p.breaks.length = p.matrices.length + 1) (i r c : Nat) :
    ((∃ q, p.getPolynomial i r c = .ok q) ↔ i < p.matrices.length ∧ r < rows ∧ c < cols) ∧
    (p.getPolynomial i r c = .error .throws ↔ p.matrices.length ≤ i) ∧
    (p.getPolynomial i r c = .error .ub ↔ i < p.matrices.length ∧ ¬(r < rows ∧ c < cols)) := by
  have hs : p.times.segments = p.matrices.length := by
    simp only [MP.times, PP.segments]
    omega
  unfold MP.getPolynomial
  rw [hs]
  by_cases hi : i < p.matrices.length
  · obtain ⟨h1, h2, h3⟩ := h _ (List.getElem_mem hi)
    have hn : nth p.matrices i = .ok p.matrices[i] := by
      simp only [nth, List.getElem?_eq_getElem hi]
    rw [throwUnless_pos hi]
    simp only [bind, Except.bind, hn, Mat.get, h1, h2]
    by_cases hrc : r < rows ∧ c < cols
    · have hk : c * rows + r < (p.matrices[i]).data.length := by
        rw [h3]
        calc c * rows + r < c * rows + rows := by omega
          _ = (c + 1) * rows := by ring
          _ ≤ cols * rows := Nat.mul_le_mul_right _ hrc.2
          _ = rows * cols := by ring
      rw [if_pos hrc]
      simp only [nth, List.getElem?_eq_getElem hk]
      refine ⟨⟨fun _ => ⟨hi, hrc⟩, fun _ => ⟨_, rfl⟩⟩, ⟨fun e => (by cases e), fun e => (by omega)⟩, ⟨fun e => (by cases e), fun e => absurd hrc e.2⟩⟩
    · rw [if_neg hrc]
      refine ⟨⟨fun ⟨_, e⟩ => (by cases e), fun e => absurd e.2 hrc⟩, ⟨fun e => (by cases e), fun e => (by omega)⟩, ⟨fun _ => ⟨hi, hrc⟩, fun _ => rfl⟩⟩
  · rw [throwUnless_neg hi]
    change ((∃ q, Except.error Err.throws = .ok q) ↔ _) ∧ (Except.error Err.throws = .error .throws ↔ _) ∧ (Except.error Err.throws = .error .ub ↔ _)
    exact ⟨⟨fun ⟨_, e⟩ => (by cases e), fun e => absurd e.1 hi⟩, ⟨fun _ => (by omega), fun _ => rfl⟩, ⟨fun e => (by cases e), fun e => absurd e.1 hi⟩⟩

example : twoMatrices.breaks.length = twoMatrices.matrices.length + 1 := by decide +kernel

end
end Maliput.Props
