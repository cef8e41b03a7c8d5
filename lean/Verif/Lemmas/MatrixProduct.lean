import Verif.Lemmas.MatrixTrajectory
import Verif.Lemmas.PolynomialCalculus
import Mathlib.Algebra.BigOperators.Group.List.Basic

set_option autoImplicit false
set_option linter.unusedSectionVars false

/-! Lemmas on products of trajectories of matrices. -/
namespace Maliput.Piecewise

open Maliput Poly
open Maliput.Piecewise.Spec
open Maliput.Poly.Spec (InVariable)

section
variable {R : Type} [Field R] [LinearOrder R] {v : Nat}

/-- A polynomial in one variable. -/
def InV (v : Nat) (q : Polynomial R) : Prop := q.isUnivariate = true ∧ InVariable v q

theorem InV.good {q : Polynomial R} (h : InV v q) : Good q.monomials := by
  intro m hm
  rcases h.2 m hm with e | ⟨k, e⟩ <;> rw [e] <;> simp

theorem InV.value {q : Polynomial R} (h : InV v q) (x : R) :
    evaluateUnivariate q x 0 = .ok (valueAt (fun _ => x) q.monomials) := by
  rw [evaluateUnivariate_ok _ _ _ h.1, derivAt_zero_eq h.2 fun _ => x]

theorem InV.add {a b : Polynomial R} (ha : InV v a) (hb : InV v b) : InV v (Poly.add a b) :=
  makeUnique_keeps v _ (fun m hm => (List.mem_append.1 hm).elim (ha.2 m) (hb.2 m)) ha.1

theorem InV.mul {a b : Polynomial R} (ha : InV v a) (hb : InV v b) : InV v (Poly.mul a b) := mul_keeps ha hb.2

theorem sum_foldl {x : R} : ∀ (qs : List (Polynomial R)) (q : Polynomial R), InV v q → (∀ a ∈ qs, InV v a) →
    InV v (qs.foldl Poly.add q) ∧ valueAt (fun _ => x) (qs.foldl Poly.add q).monomials =
      valueAt (fun _ => x) q.monomials + (qs.map fun a => valueAt (fun _ => x) a.monomials).sum
  | [], q, h, _ => ⟨h, by simp⟩
  | a :: qs, q, h, hs => by
    have ha := hs a (by simp)
    obtain ⟨h1, h2⟩ := sum_foldl (x := x) qs (Poly.add q a) (h.add ha) fun b hb => hs b (by simp [hb])
    refine ⟨h1, ?_⟩
    rw [List.foldl_cons, h2, add_value _ h.good ha.good, List.map_cons, List.sum_cons]
    ring

theorem sumPolynomials_value (x : R) (qs : List (Polynomial R)) (h : ∀ a ∈ qs, InV v a) :
    InV v (sumPolynomials qs) ∧ valueAt (fun _ => x) (sumPolynomials qs).monomials =
      (qs.map fun a => valueAt (fun _ => x) a.monomials).sum := by
  cases qs with
  | nil =>
    refine ⟨⟨rfl, fun m hm => ?_⟩, ?_⟩
    · simp only [sumPolynomials, Poly.const, List.mem_singleton] at hm
      exact Or.inl (by rw [hm])
    · simp [sumPolynomials, Poly.const, valueAt, Poly.Spec.monomialAt]
  | cons q qs =>
    obtain ⟨h1, h2⟩ := sum_foldl (x := x) qs q (h q (by simp)) fun b hb => h b (by simp [hb])
    exact ⟨h1, by simpa [sumPolynomials] using h2⟩

theorem mul_ok {rows inner cols : Nat} : ∀ {ms ns ks : List (Mat (Polynomial R))}, (∀ m ∈ ms, Shape rows inner m) →
    (∀ n ∈ ns, Shape inner cols n) → zipM Mat.mul ms ns = .ok ks → (∀ k ∈ ks, Shape rows cols k) ∧
      (ms ≠ [] → ks ≠ []) ∧ ∀ (i : Nat) m n, ms[i]? = some m → ns[i]? = some n → ∃ k, ks[i]? = some k ∧ ∀ r c, r < rows → c < cols →
        k.at r c = sumPolynomials ((List.range inner).map fun j => Poly.mul (m.at r j) (n.at j c))
  | m :: ms, n :: ns, ks, hm, hn, e => by
    simp only [zipM, bind_ok, pure_ok] at e
    obtain ⟨k, hk, ks', hks, rfl⟩ := e
    obtain ⟨h3, _, h4⟩ := mul_ok (fun m' hm' => hm m' (by simp [hm'])) (fun m' hm' => hn m' (by simp [hm'])) hks
    have hm1 := hm m (by simp)
    have hn1 := hn n (by simp)
    unfold Mat.mul at hk
    rw [if_pos (hm1.2.1.trans hn1.1.symm), hm1.1, hn1.2.1, hm1.2.1] at hk
    obtain ⟨h1, h2⟩ := generate_ok hk
    refine ⟨fun n' hn' => ?_, by simp, fun i m' n' hi hi' => ?_⟩
    · rcases List.mem_cons.1 hn' with rfl | hn'
      · exact h1
      · exact h3 n' hn'
    · cases i with
      | zero =>
        simp only [List.getElem?_cons_zero, Option.some.injEq] at hi hi'
        subst hi; subst hi'
        refine ⟨k, rfl, fun r c hr hc => ?_⟩
        have := h2 r c hr hc
        rw [mapM_eq_map (g := fun j => Poly.mul (m.at r j) (n.at j c)) fun j hj => by
          rw [Mat.get_eq hm1 hr (List.mem_range.1 hj), Mat.get_eq hn1 (List.mem_range.1 hj) hc]; rfl] at this
        exact (Except.ok.inj this).symm
      | succ i => exact h4 i m' n' hi hi'
  | [], ns, ks, _, _, e => by
    simp only [zipM] at e; cases e
    exact ⟨by simp, by simp, fun i m n hi => by simp at hi⟩
  | m :: ms, [], ks, _, _, e => by simp only [zipM] at e; cases e

theorem evaluateSegment_at {rows cols : Nat} {p : MP R} (h : Shaped rows cols p) {i r c : Nat} {t x : R} {order : Nat} (hr : r < rows)
    (hc : c < cols) (e : p.evaluateSegment i t r c order = .ok x) : ∃ m b, p.matrices[i]? = some m ∧ p.times.startOf i = .ok b ∧
      evaluateUnivariate (m.at r c) (t - b) order = .ok x := by
  simp only [MP.evaluateSegment, bind_ok] at e
  obtain ⟨m, hm, q, hq, b, hb, e⟩ := e
  have hm' : p.matrices[i]? = some m := by
    unfold nth at hm
    split at hm
    · rename_i e; rw [e, Except.ok.inj hm]
    · cases hm
  rw [Mat.get_eq (h m (List.mem_of_getElem? hm')) hr hc] at hq
  obtain rfl := Except.ok.inj hq
  exact ⟨m, b, hm', hb, e⟩

theorem mul_evaluateSegment {rows inner cols : Nat} {p q k : MP R} (hp : Shaped rows inner p) (hq : Shaped inner cols q)
    (hpos : 0 < inner) (hb : p.breaks = q.breaks)
    (hpv : ∀ m ∈ p.matrices, ∀ a ∈ m.data, InV v a) (hqv : ∀ m ∈ q.matrices, ∀ a ∈ m.data, InV v a) (e : p.mul q = .ok k)
    (i : Nat) (t : R) {r c : Nat} (hr : r < rows) (hc : c < cols) {a b : Nat → R}
    (ha : ∀ j, j < inner → p.evaluateSegment i t r j 0 = .ok (a j)) (hbv : ∀ j, j < inner → q.evaluateSegment i t j c 0 = .ok (b j)) :
    k.evaluateSegment i t r c 0 = .ok (((List.range inner).map fun j => a j * b j).sum) := by
  simp only [MP.mul, bind_ok, pure_ok] at e
  obtain ⟨_, _, ks, hks, rfl⟩ := e
  obtain ⟨h1, _, h2⟩ := mul_ok hp hq hks
  obtain ⟨m, s, hm, hs, _⟩ := evaluateSegment_at hp hr hpos (ha 0 hpos)
  obtain ⟨n, s', hn, hs', _⟩ := evaluateSegment_at hq hpos hc (hbv 0 hpos)
  obtain ⟨k, hk, hkv⟩ := h2 i m n hm hn
  have hst : q.times.startOf i = p.times.startOf i := by simp only [MP.times, hb]
  have hmem : ∀ {rows cols : Nat} {m : Mat (Polynomial R)}, Shape rows cols m → ∀ {r c}, r < rows → c < cols → m.at r c ∈ m.data := by
    intro rows cols m hm r c hr hc
    unfold Mat.at
    have hlt : c * m.rows + r < m.data.length := by rw [hm.1, hm.2.2]; exact index_lt hr hc
    rw [List.getD_eq_getElem?_getD, List.getElem?_eq_getElem hlt]
    exact List.getElem_mem hlt
  have hms := hp m (List.mem_of_getElem? hm)
  have hns := hq n (List.mem_of_getElem? hn)
  have hma : ∀ j, j < inner → InV v (m.at r j) := fun j hj => hpv m (List.mem_of_getElem? hm) _ (hmem hms hr hj)
  have hna : ∀ j, j < inner → InV v (n.at j c) := fun j hj => hqv n (List.mem_of_getElem? hn) _ (hmem hns hj hc)
  have hva : ∀ j, j < inner → valueAt (fun _ => t - s) (m.at r j).monomials = a j := by
    intro j hj
    obtain ⟨m', s'', hm', hs'', e⟩ := evaluateSegment_at hp hr hj (ha j hj)
    rw [hm] at hm'; rw [hs] at hs''
    obtain rfl := Option.some.inj hm'
    obtain rfl := Except.ok.inj hs''
    rw [(hma j hj).value] at e
    exact Except.ok.inj e
  have hvb : ∀ j, j < inner → valueAt (fun _ => t - s) (n.at j c).monomials = b j := by
    intro j hj
    obtain ⟨m', s'', hm', hs'', e⟩ := evaluateSegment_at hq hj hc (hbv j hj)
    rw [hn] at hm'; rw [hst, hs] at hs''
    obtain rfl := Option.some.inj hm'
    obtain rfl := Except.ok.inj hs''
    rw [(hna j hj).value] at e
    exact Except.ok.inj e
  obtain ⟨k1, k2⟩ := sumPolynomials_value (v := v) (t - s) ((List.range inner).map fun j => Poly.mul (m.at r j) (n.at j c))
    fun x hx => by
      obtain ⟨j, hj, rfl⟩ := List.mem_map.1 hx
      exact (hma j (List.mem_range.1 hj)).mul (hna j (List.mem_range.1 hj))
  have hkm : nth ks i = .ok k := by unfold nth; rw [hk]
  have hkt : (⟨p.breaks, ks⟩ : MP R).times.startOf i = .ok s := hs
  simp only [MP.evaluateSegment, hkm, Mat.get_eq (h1 k (List.mem_of_getElem? hk)) hr hc, hkt, bind, Except.bind]
  rw [hkv r c hr hc, k1.value, k2, List.map_map]
  congr 2
  refine List.map_congr_left fun j hj => ?_
  have hj := List.mem_range.1 hj
  rw [Function.comp_apply, mul_value _ (hma j hj).good, hva j hj, hvb j hj]

theorem offsetAll_ok {rows cols : Nat} {offset : Mat R} (ho : Shape rows cols offset) (op : Polynomial R → R → Polynomial R) :
    ∀ {ms ns : List (Mat (Polynomial R))}, (∀ m ∈ ms, Shape rows cols m) → (ms.mapM fun m => m.zipWith op offset) = .ok ns →
      (∀ n ∈ ns, Shape rows cols n) ∧ ∀ r c x, r < rows → c < cols → offset.get r c = .ok x →
        (ms.map fun m => op (m.at r c) x) = ns.map fun n => n.at r c
  | [], ns, _, e => by
    simp only [List.mapM_nil, pure, Except.pure, Except.ok.injEq] at e
    subst e
    exact ⟨by simp, fun _ _ _ _ _ _ => rfl⟩
  | m :: ms, ns, hms, e => by
    obtain ⟨n, ns', hn, hns, rfl⟩ := mapM_cons_ok.1 e
    obtain ⟨h3, h4⟩ := offsetAll_ok ho op (fun m' hm' => hms m' (by simp [hm'])) hns
    have hm := hms m (by simp)
    unfold Mat.zipWith at hn
    rw [if_pos ⟨hm.1.trans ho.1.symm, hm.2.1.trans ho.2.1.symm⟩, hm.1, hm.2.1] at hn
    obtain ⟨h1, h2⟩ := generate_ok hn
    refine ⟨fun n' hn' => ?_, fun r c x hr hc hx => ?_⟩
    · rcases List.mem_cons.1 hn' with rfl | hn'
      · exact h1
      · exact h3 n' hn'
    · have := h2 r c hr hc
      rw [Mat.get_eq hm hr hc, hx] at this
      simp only [List.map_cons, h4 r c x hr hc hx]
      rw [← Except.ok.inj this]

end
end Maliput.Piecewise
