import Mathlib.Tactic.Ring
import Mathlib.Tactic.Common
import Verif.Lemmas.Monad
import Verif.Spec.MatrixTrajectory

set_option autoImplicit false
set_option linter.unusedSectionVars false

/-! Lemmas on trajectories of matrices. -/
namespace Maliput.Piecewise

open Maliput Poly
open Maliput.Piecewise.Spec

theorem throwUnless_pos {P : Prop} [Decidable P] (h : P) : throwUnless (decide P) = .ok () := throwUnless_ok.2 (by simpa using h)

theorem throwUnless_neg {P : Prop} [Decidable P] (h : ¬P) : throwUnless (decide P) = .error .throws := by simp [throwUnless, h]

section lists
variable {α β γ : Type}

theorem mapM_cons_ok {f : α → Except Err β} {a : α} {l : List α} {ys : List β} :
    (a :: l).mapM f = .ok ys ↔ ∃ b bs, f a = .ok b ∧ l.mapM f = .ok bs ∧ ys = b :: bs := by
  rw [List.mapM_cons]
  simp only [bind, Except.bind, pure, Except.pure]
  cases f a with
  | error e => simp
  | ok b =>
    cases l.mapM f with
    | error e => simp
    | ok bs => simp [eq_comm]

theorem mapM_ok_get {f : α → Except Err β} : ∀ {l : List α} {ys : List β}, l.mapM f = .ok ys →
    ys.length = l.length ∧ ∀ (k : Nat) (a : α), l[k]? = some a → ∃ b, f a = .ok b ∧ ys[k]? = some b
  | [], ys, h => by
    simp only [List.mapM_nil, pure, Except.pure, Except.ok.injEq] at h
    subst h
    exact ⟨rfl, fun k a h => by simp at h⟩
  | x :: l, ys, h => by
    obtain ⟨b, bs, hb, hbs, rfl⟩ := mapM_cons_ok.1 h
    obtain ⟨h1, h2⟩ := mapM_ok_get hbs
    refine ⟨by simp [h1], fun k a hk => ?_⟩
    cases k with
    | zero => simp only [List.getElem?_cons_zero, Option.some.injEq] at hk; subst hk; exact ⟨b, hb, rfl⟩
    | succ k => exact h2 k a hk

theorem mapM_eq_map {f : α → Except Err β} {g : α → β} : ∀ {l : List α}, (∀ a ∈ l, f a = .ok (g a)) → l.mapM f = .ok (l.map g)
  | [], _ => rfl
  | a :: l, h => mapM_cons_ok.2 ⟨g a, l.map g, h a (by simp), mapM_eq_map fun b hb => h b (by simp [hb]), rfl⟩

end lists

section mats
variable {α : Type}

/-- An entry, or a default. -/
def Mat.at [Inhabited α] (m : Mat α) (r c : Nat) : α := m.data.getD (c * m.rows + r) default

theorem index_lt {rows cols r c : Nat} (hr : r < rows) (hc : c < cols) : c * rows + r < rows * cols := by
  calc c * rows + r < c * rows + rows := by omega
    _ = rows * (c + 1) := by ring
    _ ≤ rows * cols := Nat.mul_le_mul_left _ hc

theorem Mat.get_eq [Inhabited α] {rows cols : Nat} {m : Mat α} (h : Shape rows cols m) {r c : Nat} (hr : r < rows) (hc : c < cols) :
    m.get r c = .ok (m.at r c) := by
  obtain ⟨h1, h2, h3⟩ := h
  have hlt : c * m.rows + r < m.data.length := by rw [h1, h3]; exact index_lt hr hc
  unfold Mat.get Mat.at nth
  rw [if_pos ⟨by omega, by omega⟩, List.getElem?_eq_getElem hlt]
  simp [List.getD_eq_getElem?_getD, List.getElem?_eq_getElem hlt]

theorem generate_ok [Inhabited α] {rows cols : Nat} {f : Nat → Nat → Except Err α} {m : Mat α} (h : generate rows cols f = .ok m) :
    Shape rows cols m ∧ ∀ r c, r < rows → c < cols → f r c = .ok (m.at r c) := by
  unfold generate at h
  simp only [bind_ok, pure_ok] at h
  obtain ⟨data, hd, rfl⟩ := h
  obtain ⟨h1, h2⟩ := mapM_ok_get hd
  rw [List.length_range] at h1
  refine ⟨⟨rfl, rfl, h1⟩, fun r c hr hc => ?_⟩
  have hlt := index_lt hr hc
  obtain ⟨b, hb, hk⟩ := h2 (c * rows + r) (c * rows + r) (by rw [List.getElem?_range hlt])
  have e1 : (c * rows + r) % rows = r := by rw [Nat.mul_comm, Nat.mul_add_mod, Nat.mod_eq_of_lt hr]
  have e2 : (c * rows + r) / rows = c := by
    rw [Nat.mul_comm, Nat.mul_add_div (by omega), Nat.div_eq_of_lt hr, Nat.add_zero]
  rw [e1, e2] at hb
  rw [hb]
  simp [Mat.at, List.getD_eq_getElem?_getD, hk]

theorem generate_total {rows cols : Nat} {f : Nat → Nat → Except Err α}
    (h : ∀ r c, r < rows → c < cols → ∃ x, f r c = .ok x) : ∃ m, generate rows cols f = .ok m := by
  have : ∀ l : List Nat, (∀ k ∈ l, k < rows * cols) → ∃ ys, (l.mapM fun k => f (k % rows) (k / rows)) = .ok ys := by
    intro l
    induction l with
    | nil => exact fun _ => ⟨[], rfl⟩
    | cons k l ih =>
      intro hl
      obtain ⟨ys, hys⟩ := ih fun j hj => hl j (by simp [hj])
      have hk := hl k (by simp)
      have hpos : 0 < rows := Nat.pos_of_ne_zero fun h0 => by simp [h0] at hk
      obtain ⟨x, hx⟩ := h (k % rows) (k / rows) (Nat.mod_lt _ hpos) (Nat.div_lt_of_lt_mul hk)
      exact ⟨x :: ys, mapM_cons_ok.2 ⟨x, ys, hx, hys, rfl⟩⟩
  obtain ⟨ys, hys⟩ := this (List.range (rows * cols)) fun k hk => List.mem_range.1 hk
  exact ⟨⟨rows, cols, ys⟩, by simp only [generate, hys, bind, Except.bind, pure, Except.pure]⟩

end mats

section
variable {R : Type} [Field R] [LinearOrder R]

instance : Inhabited (Polynomial R) := ⟨⟨[], true⟩⟩

/-- The trajectory of an entry of a shaped trajectory. -/
def MP.ent (p : MP R) (r c : Nat) : PP R := ⟨p.breaks, p.matrices.map fun m => m.at r c⟩

theorem entry_eq {rows cols : Nat} {p : MP R} (h : Shaped rows cols p) {r c : Nat} (hr : r < rows) (hc : c < cols) :
    entry p r c = .ok (p.ent r c) := by
  unfold entry
  rw [mapM_eq_map fun m hm => Mat.get_eq (h m hm) hr hc]
  rfl

theorem shaped_rows_eq {rows cols : Nat} {p : MP R} (h : Shaped rows cols p) {n : Nat} (e : p.rows = .ok n) : n = rows := by
  unfold MP.rows at e
  cases hm : p.matrices with
  | nil => rw [hm] at e; cases e
  | cons m ms =>
    rw [hm] at e
    exact (Except.ok.inj e).symm.trans (h m (by simp [hm])).1

theorem shaped_cols_eq {rows cols : Nat} {p : MP R} (h : Shaped rows cols p) {n : Nat} (e : p.cols = .ok n) : n = cols := by
  unfold MP.cols at e
  cases hm : p.matrices with
  | nil => rw [hm] at e; cases e
  | cons m ms =>
    rw [hm] at e
    exact (Except.ok.inj e).symm.trans (h m (by simp [hm])).2.1

theorem shaped_rows_ok {rows cols : Nat} {p : MP R} (h : Shaped rows cols p) (hne : p.matrices ≠ []) : p.rows = .ok rows := by
  unfold MP.rows
  cases hm : p.matrices with
  | nil => exact absurd hm hne
  | cons m ms => rw [← (h m (by simp [hm])).1]

theorem shaped_cols_ok {rows cols : Nat} {p : MP R} (h : Shaped rows cols p) (hne : p.matrices ≠ []) : p.cols = .ok cols := by
  unfold MP.cols
  cases hm : p.matrices with
  | nil => exact absurd hm hne
  | cons m ms => rw [← (h m (by simp [hm])).2.1]

theorem ent_segments (p : MP R) (r c : Nat) : (p.ent r c).segments = p.times.segments := rfl
theorem ent_startOf (p : MP R) (r c i : Nat) : (p.ent r c).startOf i = p.times.startOf i := rfl
theorem ent_startTime (p : MP R) (r c : Nat) : (p.ent r c).startTime = p.times.startTime := rfl
theorem ent_endTime (p : MP R) (r c : Nat) : (p.ent r c).endTime = p.times.endTime := rfl
theorem ent_clip (p : MP R) (r c : Nat) (t : R) : (p.ent r c).clip t = p.times.clip t := rfl
theorem ent_segmentIndex (p : MP R) (r c : Nat) (t : R) : (p.ent r c).segmentIndex t = p.times.segmentIndex t := rfl

theorem evaluateSegment_eq {rows cols : Nat} {p : MP R} (h : Shaped rows cols p) {r c : Nat} (hr : r < rows) (hc : c < cols)
    (i : Nat) (t : R) (order : Nat) : p.evaluateSegment i t r c order = (p.ent r c).evaluateSegment i t order := by
  unfold MP.evaluateSegment PP.evaluateSegment
  rw [ent_startOf]
  have : nth (p.ent r c).polynomials i = (do (← nth p.matrices i).get r c) := by
    unfold nth MP.ent
    dsimp only
    rw [List.getElem?_map]
    cases e : p.matrices[i]? with
    | none => rfl
    | some m => exact (Mat.get_eq (h m (List.mem_of_getElem? e)) hr hc).symm
  rw [this]
  cases e : nth p.matrices i <;> rfl

theorem evalDerivative_ent {rows cols : Nat} {p : MP R} (h : Shaped rows cols p) (t : R) (order : Nat) {m : Mat R}
    (hm : p.evalDerivative t order = .ok m) :
    Shape rows cols m ∧ ∀ r c, r < rows → c < cols → (p.ent r c).evalDerivative t order = m.get r c := by
  simp only [MP.evalDerivative, bind_ok] at hm
  obtain ⟨i, hi, time, ht, rows', hrows, cols', hcols, hg⟩ := hm
  obtain rfl := shaped_rows_eq h hrows
  obtain rfl := shaped_cols_eq h hcols
  have : Inhabited R := ⟨0⟩
  obtain ⟨h1, h2⟩ := generate_ok hg
  refine ⟨h1, fun r c hr hc => ?_⟩
  rw [Mat.get_eq h1 hr hc, ← h2 r c hr hc, evaluateSegment_eq h hr hc]
  simp only [PP.evalDerivative, ent_segmentIndex, ent_clip, hi, ht, bind, Except.bind]

theorem evalDerivative_total {rows cols : Nat} {p : MP R} (h : Shaped rows cols p) (hr0 : 0 < rows) (hc0 : 0 < cols) (t : R)
    (order : Nat) (hne : p.matrices ≠ []) (he : ∀ r c, r < rows → c < cols → ∃ x, (p.ent r c).evalDerivative t order = .ok x) :
    ∃ m, p.evalDerivative t order = .ok m := by
  obtain ⟨x, hx⟩ := he 0 0 hr0 hc0
  simp only [PP.evalDerivative, bind_ok, ent_segmentIndex, ent_clip] at hx
  obtain ⟨i, hi, time, ht, _⟩ := hx
  simp only [MP.evalDerivative, hi, ht, shaped_rows_ok h hne, shaped_cols_ok h hne, bind, Except.bind]
  refine generate_total fun r c hr hc => ?_
  obtain ⟨y, hy⟩ := he r c hr hc
  simp only [PP.evalDerivative, ent_segmentIndex, ent_clip, hi, ht, bind, Except.bind] at hy
  exact ⟨y, by rw [evaluateSegment_eq h hr hc]; exact hy⟩

theorem changed_ok {rows cols : Nat} {p : MP R} (h : Shaped rows cols p) {g : Polynomial R → Except Err (Polynomial R)}
    {m n : Mat (Polynomial R)} (hm : Shape rows cols m) (hn : p.changed g m = .ok n) :
    Shape rows cols n ∧ ∀ r c, r < rows → c < cols → g (m.at r c) = .ok (n.at r c) := by
  simp only [MP.changed, bind_ok] at hn
  obtain ⟨rows', hrows, cols', hcols, hg⟩ := hn
  obtain rfl := shaped_rows_eq h hrows
  obtain rfl := shaped_cols_eq h hcols
  obtain ⟨h1, h2⟩ := generate_ok hg
  refine ⟨h1, fun r c hr hc => ?_⟩
  have := h2 r c hr hc
  rw [Mat.get_eq hm hr hc] at this
  exact this

theorem changedAll_ok {rows cols : Nat} {p : MP R} (h : Shaped rows cols p) {g : Polynomial R → Except Err (Polynomial R)} :
    ∀ {ms ns : List (Mat (Polynomial R))}, (∀ m ∈ ms, Shape rows cols m) → ms.mapM (p.changed g) = .ok ns →
      (∀ n ∈ ns, Shape rows cols n) ∧
        ∀ r c, r < rows → c < cols → (ms.map fun m => m.at r c).mapM g = .ok (ns.map fun n => n.at r c)
  | [], ns, _, e => by
    simp only [List.mapM_nil, pure, Except.pure, Except.ok.injEq] at e
    subst e
    exact ⟨by simp, fun _ _ _ _ => rfl⟩
  | m :: ms, ns, hms, e => by
    obtain ⟨n, ns', hn, hns, rfl⟩ := mapM_cons_ok.1 e
    obtain ⟨h1, h2⟩ := changed_ok h (hms m (by simp)) hn
    obtain ⟨h3, h4⟩ := changedAll_ok h (fun m' hm' => hms m' (by simp [hm'])) hns
    refine ⟨fun n' hn' => ?_, fun r c hr hc => mapM_cons_ok.2 ⟨_, _, h2 r c hr hc, h4 r c hr hc, rfl⟩⟩
    rcases List.mem_cons.1 hn' with rfl | hn'
    · exact h1
    · exact h3 n' hn'

theorem reverseMatrices_ok {rows cols : Nat} {p : MP R} (h : Shaped rows cols p) :
    ∀ {bs : List R} {ms ns : List (Mat (Polynomial R))}, (∀ m ∈ ms, Shape rows cols m) → p.reverseMatrices bs ms = .ok ns →
      (∀ n ∈ ns, Shape rows cols n) ∧
        ∀ r c, r < rows → c < cols → reversePieces bs (ms.map fun m => m.at r c) = .ok (ns.map fun n => n.at r c)
  | b0 :: b1 :: bs, m :: ms, ns, hms, e => by
    simp only [MP.reverseMatrices, bind_ok, pure_ok] at e
    obtain ⟨n, hn, ns', hns, rfl⟩ := e
    obtain ⟨h1, h2⟩ := changed_ok h (hms m (by simp)) hn
    obtain ⟨h3, h4⟩ := reverseMatrices_ok h (fun m' hm' => hms m' (by simp [hm'])) hns
    refine ⟨fun n' hn' => ?_, fun r c hr hc => ?_⟩
    · rcases List.mem_cons.1 hn' with rfl | hn'
      · exact h1
      · exact h3 n' hn'
    · simp only [List.map_cons, reversePieces, h2 r c hr hc, h4 r c hr hc, bind, Except.bind, pure, Except.pure]
  | [], ms, ns, _, e => by
    simp only [MP.reverseMatrices, pure_ok] at e; subst e
    exact ⟨by simp, fun _ _ _ _ => by simp only [reversePieces]; rfl⟩
  | [b], ms, ns, _, e => by
    simp only [MP.reverseMatrices, pure_ok] at e; subst e
    exact ⟨by simp, fun _ _ _ _ => by simp only [reversePieces]; rfl⟩
  | b0 :: b1 :: bs, [], ns, _, e => by
    simp only [MP.reverseMatrices, pure_ok] at e; subst e
    exact ⟨by simp, fun _ _ _ _ => by simp only [List.map_nil, reversePieces]; rfl⟩

theorem integralMatrices_value {rows cols : Nat} {p : MP R} (h : Shaped rows cols p) {b0 b1 : R} {bs : List R}
    {m : Mat (Polynomial R)} {ms ns : List (Mat (Polynomial R))} {value : Nat → Nat → Except Err R}
    (e : p.integralMatrices (b0 :: b1 :: bs) (m :: ms) value = .ok ns) {r c : Nat} (hr : r < rows) (hc : c < cols) :
    ∃ x, value r c = .ok x := by
  simp only [MP.integralMatrices, bind_ok, pure_ok] at e
  obtain ⟨rows', hrows, cols', hcols, n, hg, ns', hns, rfl⟩ := e
  obtain rfl := shaped_rows_eq h hrows
  obtain rfl := shaped_cols_eq h hcols
  have := (generate_ok hg).2 r c hr hc
  simp only [bind_ok] at this
  obtain ⟨_, _, x, hx, _⟩ := this
  exact ⟨x, hx⟩

theorem integralMatrices_ok {rows cols : Nat} {p : MP R} (h : Shaped rows cols p) :
    ∀ {bs : List R} {ms ns : List (Mat (Polynomial R))} {value : Nat → Nat → Except Err R}, bs.length = ms.length + 1 →
      (∀ m ∈ ms, Shape rows cols m) → p.integralMatrices bs ms value = .ok ns → (∀ n ∈ ns, Shape rows cols n) ∧
        ∀ r c x, r < rows → c < cols → (ms ≠ [] → value r c = .ok x) →
          integralPieces bs (ms.map fun m => m.at r c) x = .ok (ns.map fun n => n.at r c)
  | b0 :: b1 :: bs, m :: ms, ns, value, hl, hms, e => by
    have e0 := e
    simp only [MP.integralMatrices, bind_ok, pure_ok] at e
    obtain ⟨rows', hrows, cols', hcols, n, hg, ns', hns, rfl⟩ := e
    obtain rfl := shaped_rows_eq h hrows
    obtain rfl := shaped_cols_eq h hcols
    obtain ⟨h1, h2⟩ := generate_ok hg
    obtain ⟨h3, h4⟩ := integralMatrices_ok h (by simpa using hl) (fun m' hm' => hms m' (by simp [hm'])) hns
    refine ⟨fun n' hn' => ?_, fun r c x hr hc hx => ?_⟩
    · rcases List.mem_cons.1 hn' with rfl | hn'
      · exact h1
      · exact h3 n' hn'
    · have hi := h2 r c hr hc
      rw [Mat.get_eq (hms m (by simp)) hr hc, hx (by simp)] at hi
      have hi : Poly.integral (m.at r c) x = .ok (n.at r c) := hi
      simp only [List.map_cons, integralPieces, hi, bind, Except.bind]
      cases ms with
      | nil =>
        simp only [List.map_nil, if_true, pure, Except.pure]
        have := h4 r c 0 hr hc (by simp)
        simp only [List.map_nil] at this
        rw [this]
      | cons m' ms =>
        obtain ⟨b2, bs, rfl⟩ : ∃ b2 bs', bs = b2 :: bs' := by
          cases bs with
          | nil => simp at hl
          | cons b2 bs' => exact ⟨b2, bs', rfl⟩
        obtain ⟨y, hy⟩ := integralMatrices_value h hns hr hc
        have hy' := hy
        rw [Mat.get_eq h1 hr hc] at hy'
        have hy' : evaluateUnivariate (n.at r c) (b1 - b0) 0 = .ok y := hy'
        rw [if_neg (by simp), hy']
        have := h4 r c y hr hc fun _ => hy
        simp only [this, pure, Except.pure]
  | [], ms, ns, value, _, _, e => by
    simp only [MP.integralMatrices, pure_ok] at e; subst e
    exact ⟨by simp, fun _ _ _ _ _ _ => by simp only [integralPieces]; rfl⟩
  | [b], ms, ns, value, _, _, e => by
    simp only [MP.integralMatrices, pure_ok] at e; subst e
    exact ⟨by simp, fun _ _ _ _ _ _ => by simp only [integralPieces]; rfl⟩
  | b0 :: b1 :: bs, [], ns, value, _, _, e => by
    simp only [MP.integralMatrices, pure_ok] at e; subst e
    exact ⟨by simp, fun _ _ _ _ _ _ => by simp only [List.map_nil, integralPieces]; rfl⟩

theorem zipWith_ok {rows cols : Nat} (op : Polynomial R → Polynomial R → Polynomial R) :
    ∀ {ms ns ks : List (Mat (Polynomial R))}, (∀ m ∈ ms, Shape rows cols m) → (∀ n ∈ ns, Shape rows cols n) →
      zipM (Mat.zipWith op) ms ns = .ok ks → (∀ k ∈ ks, Shape rows cols k) ∧
        ∀ r c, r < rows → c < cols →
          List.zipWith op (ms.map fun m => m.at r c) (ns.map fun m => m.at r c) = ks.map fun m => m.at r c
  | m :: ms, n :: ns, ks, hm, hn, e => by
    simp only [zipM, bind_ok, pure_ok] at e
    obtain ⟨k, hk, ks', hks, rfl⟩ := e
    obtain ⟨h3, h4⟩ := zipWith_ok op (fun m' hm' => hm m' (by simp [hm'])) (fun m' hm' => hn m' (by simp [hm'])) hks
    have hm1 := hm m (by simp)
    have hn1 := hn n (by simp)
    unfold Mat.zipWith at hk
    rw [if_pos ⟨hm1.1.trans hn1.1.symm, hm1.2.1.trans hn1.2.1.symm⟩, hm1.1, hm1.2.1] at hk
    obtain ⟨h1, h2⟩ := generate_ok hk
    refine ⟨fun n' hn' => ?_, fun r c hr hc => ?_⟩
    · rcases List.mem_cons.1 hn' with rfl | hn'
      · exact h1
      · exact h3 n' hn'
    · have := h2 r c hr hc
      rw [Mat.get_eq hm1 hr hc, Mat.get_eq hn1 hr hc] at this
      have : op (m.at r c) (n.at r c) = k.at r c := Except.ok.inj this
      simp only [List.map_cons, List.zipWith_cons_cons, this, h4 r c hr hc]
  | [], ns, ks, _, _, e => by
    simp only [zipM] at e; cases e
    exact ⟨by simp, fun _ _ _ _ => rfl⟩
  | m :: ms, [], ks, _, _, e => by simp only [zipM] at e; cases e

theorem matrixMake_ok {ms : List (Mat (Polynomial R))} {bs : List R} {q : MP R} (h : MP.make ms bs = .ok q) :
    q = ⟨bs, ms⟩ ∧ breaksApart bs = true := by
  unfold MP.make at h
  split at h
  · cases h
  · rename_i hb
    refine ⟨?_, by simpa using hb⟩
    split at h
    · exact (Except.ok.inj h).symm
    · split at h
      · exact (Except.ok.inj h).symm
      · cases h

end
end Maliput.Piecewise
