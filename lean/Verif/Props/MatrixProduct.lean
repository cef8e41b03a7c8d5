import Verif.Lemmas.MatrixProduct
import Verif.Model.PolynomialQueries
import Verif.Props.MatrixTrajectory

set_option autoImplicit false
set_option linter.unusedSectionVars false

/-! C150: products, offsets and negation of trajectories of matrices. -/
namespace Maliput.Props

open Maliput Poly Piecewise
open Maliput.Piecewise.Spec (Shape Shaped entry EntriesOf)

section
variable {R : Type} [Field R] [LinearOrder R] {rows inner cols : Nat} {p q k : MP R}

/-- **C150.** The value of the product of two trajectories of matrices with the same breaks, of polynomials in one variable, is
the product of the values. -/
theorem matrix_trajectory_mul (hp : Shaped rows inner p) (hq : Shaped inner cols q) (hpos : 0 < inner) (hb : p.breaks = q.breaks) (v : Nat)
    (hpv : ∀ m ∈ p.matrices, ∀ a ∈ m.data, a.isUnivariate = true ∧ Poly.Spec.InVariable v a)
    (hqv : ∀ m ∈ q.matrices, ∀ a ∈ m.data, a.isUnivariate = true ∧ Poly.Spec.InVariable v a) (e : p.mul q = .ok k) (t : R) {A B : Mat R}
    (hA : p.evalDerivative t 0 = .ok A) (hB : q.evalDerivative t 0 = .ok B) :
    Shaped rows cols k ∧ ∃ M, k.evalDerivative t 0 = .ok M ∧ Shape rows cols M ∧ ∀ r c (a b : Nat → R), r < rows → c < cols →
      (∀ j < inner, A.get r j = .ok (a j)) → (∀ j < inner, B.get j c = .ok (b j)) →
        M.get r c = .ok (((List.range inner).map fun j => a j * b j).sum) := by
  have hmul := fun i t {r c} (hr : r < rows) (hc : c < cols) {a b} => mul_evaluateSegment hp hq hpos hb hpv hqv e i t hr hc (a := a) (b := b)
  simp only [MP.mul, bind_ok, pure_ok] at e
  obtain ⟨_, _, ks, hks, rfl⟩ := e
  obtain ⟨h1, hne, _⟩ := mul_ok hp hq hks
  have hk : Shaped rows cols (⟨p.breaks, ks⟩ : MP R) := h1
  refine ⟨hk, ?_⟩
  simp only [MP.evalDerivative, bind_ok] at hA hB
  obtain ⟨i, hi, time, ht, rowsA, hrA, colsA, hcA, hA⟩ := hA
  obtain ⟨i', hi', time', ht', rowsB, hrB, colsB, hcB, hB⟩ := hB
  have hne1 : p.matrices ≠ [] := fun h0 => by simp [MP.rows, h0] at hrA
  obtain rfl := shaped_rows_eq hp hrA
  obtain rfl := shaped_cols_eq hp hcA
  have := shaped_rows_eq hq hrB
  subst this
  obtain rfl := shaped_cols_eq hq hcB
  have e1 : q.times = p.times := by simp only [MP.times, hb]
  rw [e1, hi] at hi'
  obtain rfl := Except.ok.inj hi'
  rw [e1, ht] at ht'
  obtain rfl := Except.ok.inj ht'
  have inst : Inhabited R := ⟨0⟩
  obtain ⟨sA, gA⟩ := generate_ok hA
  obtain ⟨sB, gB⟩ := generate_ok hB
  have hval := fun {r c} (hr : r < rowsA) (hc : c < colsB) => hmul i time hr hc (fun j hj => gA r j hr hj) (fun j hj => gB j c hj hc)
  obtain ⟨M, hM⟩ := generate_total (rows := rowsA) (cols := colsB) (f := fun r c => (⟨p.breaks, ks⟩ : MP R).evaluateSegment i time r c 0)
    fun r c hr hc => ⟨_, hval hr hc⟩
  obtain ⟨sM, gM⟩ := generate_ok hM
  refine ⟨M, ?_, sM, fun r c a b hr hc ha hb => ?_⟩
  · have f1 : (⟨p.breaks, ks⟩ : MP R).times.segmentIndex t = .ok i := hi
    have f2 : (⟨p.breaks, ks⟩ : MP R).times.clip t = .ok time := ht
    simp only [MP.evalDerivative, f1, f2, shaped_rows_ok hk (hne hne1), shaped_cols_ok hk (hne hne1), bind, Except.bind]
    exact hM
  · rw [Mat.get_eq sM hr hc, ← gM r c hr hc, hval hr hc]
    congr 2
    refine List.map_congr_left fun j hj => ?_
    have hj := List.mem_range.1 hj
    have h2 := ha j hj
    have h3 := hb j hj
    rw [Mat.get_eq sA hr hj] at h2
    rw [Mat.get_eq sB hj hc] at h3
    rw [Except.ok.inj h2, Except.ok.inj h3]

example : (twoMatrices.mul twoMatrices).bind (·.evalDerivative 2 0) = .ok ⟨2, 2, [3 * 3 + 2 * 8, 8 * 3 + 5 * 8, 3 * 2 + 2 * 5, 8 * 2 + 5 * 5]⟩ := by
  decide +kernel
example : ∀ m ∈ twoMatrices.matrices, ∀ a ∈ m.data, a.isUnivariate = true ∧ ∀ n ∈ a.monomials, n.terms = [] ∨ ∃ k ∈ [1, 2], n.terms = [⟨tVar, k⟩] := by
  decide +kernel

/-- **C150.** Adding or subtracting a matrix adds or subtracts its number in each entry, and the negative of a trajectory has the
negative of each entry. -/
theorem matrix_trajectory_offset (hp : Shaped rows cols p) {offset : Mat R} (ho : Shape rows cols offset) :
    (p.addOffset offset = .ok q → Shaped rows cols q ∧ ∀ r c x, r < rows → c < cols → offset.get r c = .ok x →
      (entry p r c).map (·.addOffset x) = entry q r c) ∧
    (p.subOffset offset = .ok q → Shaped rows cols q ∧ ∀ r c x, r < rows → c < cols → offset.get r c = .ok x →
      (entry p r c).map (·.subOffset x) = entry q r c) ∧
    EntriesOf rows cols p (fun _ _ e => .ok e.negate) p.negate := by
  refine ⟨fun e => ?_, fun e => ?_, ?_⟩
  · simp only [MP.addOffset, bind_ok, pure_ok] at e
    obtain ⟨ns, hns, rfl⟩ := e
    obtain ⟨h1, h2⟩ := offsetAll_ok ho _ hp hns
    refine ⟨h1, fun r c x hr hc hx => ?_⟩
    rw [entry_eq hp hr hc, entry_eq (p := ⟨p.breaks, ns⟩) h1 hr hc]
    simp only [Except.map, PP.addOffset, MP.ent, List.map_map, ← h2 r c x hr hc hx]
    rfl
  · simp only [MP.subOffset, bind_ok, pure_ok] at e
    obtain ⟨ns, hns, rfl⟩ := e
    obtain ⟨h1, h2⟩ := offsetAll_ok ho _ hp hns
    refine ⟨h1, fun r c x hr hc hx => ?_⟩
    rw [entry_eq hp hr hc, entry_eq (p := ⟨p.breaks, ns⟩) h1 hr hc]
    simp only [Except.map, PP.subOffset, MP.ent, List.map_map, ← h2 r c x hr hc hx]
    rfl
  · have hs : Shaped rows cols p.negate := by
      intro m hm
      obtain ⟨m0, hm0, rfl⟩ := List.mem_map.1 hm
      have := hp m0 hm0
      exact ⟨this.1, this.2.1, by simpa using this.2.2⟩
    refine entriesOf_ent hp hs fun r c hr hc => ?_
    simp only [PP.negate, MP.ent, MP.negate, List.map_map, Except.ok.injEq, PP.mk.injEq, true_and]
    refine List.map_congr_left fun m hm => ?_
    have := hp m hm
    have hlt : c * m.rows + r < m.data.length := by rw [this.1, this.2.2]; exact index_lt hr hc
    simp [Mat.at, List.getD_eq_getElem?_getD, List.getElem?_eq_getElem hlt]

example : (twoMatrices.addOffset ⟨2, 2, [1, 2, 3, 4]⟩).bind (·.evalDerivative 2 0) = .ok ⟨2, 2, [4, 10, 5, 9]⟩ ∧
    twoMatrices.negate.evalDerivative 2 0 = .ok ⟨2, 2, [-3, -8, -2, -5]⟩ := by decide +kernel

end
end Maliput.Props
