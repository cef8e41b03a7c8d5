import Verif.Lemmas.MatrixTrajectory
import Verif.Spec.MatrixSplines

set_option autoImplicit false
set_option linter.unusedSectionVars false

/-! Lemmas on splines through matrices. -/
namespace Maliput.Piecewise

open Maliput Poly
open Maliput.Piecewise.Spec

variable {R : Type} [Field R] [LinearOrder R] {rows cols : Nat}

/-- Entries outside of a matrix are 0. -/
local instance fieldInhabited : Inhabited R := ⟨0⟩

/-- One entry of each sample. -/
def entriesAt (ys : List (Mat R)) (r c : Nat) : List R := ys.map fun y => y.at r c

theorem column_eq {ys : List (Mat R)} (h : ∀ y ∈ ys, Shape rows cols y) {r c : Nat} (hr : r < rows) (hc : c < cols) :
    column ys r c = .ok (entriesAt ys r c) := mapM_eq_map fun m hm => Mat.get_eq (h m hm) hr hc

theorem checkMatrices_eq {ys : List (Mat R)} (h : ∀ y ∈ ys, Shape rows cols y) (hr0 : 0 < rows) (hc0 : 0 < cols) (times : List R)
    (n : Nat) (hn : 0 < n) (r c : Nat) : checkMatrices times ys n = checkInput times (entriesAt ys r c) n := by
  unfold checkMatrices checkInput
  rw [show (entriesAt ys r c).length = ys.length by simp [entriesAt]]
  by_cases h1 : times.length = ys.length
  · by_cases h2 : n ≤ times.length
    · simp only [throwUnless_pos h1, throwUnless_pos h2, bind, Except.bind]
      cases ys with
      | nil => simp at h1; simp [h1] at h2; omega
      | cons y ys =>
        have hy := h y (by simp)
        have h3 : 1 ≤ y.rows ∧ 1 ≤ y.cols := by rw [hy.1, hy.2.1]; omega
        have h4 : ((y :: ys).all fun z => z.rows == y.rows && z.cols == y.cols) = true := by
          rw [List.all_eq_true]
          intro z hz
          have := h z hz
          simp [this.1, this.2.1, hy.1, hy.2.1]
        simp only [throwUnless_pos h3, h4]
        rfl
    · simp only [throwUnless_pos h1, throwUnless_neg h2, bind, Except.bind]
  · simp only [throwUnless_neg h1, bind, Except.bind]

theorem zip_total {α β γ : Type} [Inhabited α] [Inhabited β] [Inhabited γ] (op : α → β → γ) {m : Mat α} {n : Mat β}
    (hm : Shape rows cols m) (hn : Shape rows cols n) :
    ∃ k, Mat.zipWith op m n = .ok k ∧ Shape rows cols k ∧ ∀ r c, r < rows → c < cols → k.at r c = op (m.at r c) (n.at r c) := by
  unfold Mat.zipWith
  rw [if_pos ⟨hm.1.trans hn.1.symm, hm.2.1.trans hn.2.1.symm⟩, hm.1, hm.2.1]
  have hf : ∀ r c, r < rows → c < cols → (do return op (← m.get r c) (← n.get r c) : Except Err γ) = .ok (op (m.at r c) (n.at r c)) := by
    intro r c hr hc
    rw [Mat.get_eq hm hr hc, Mat.get_eq hn hr hc]; rfl
  obtain ⟨k, hk⟩ := generate_total (f := fun r c => (do return op (← m.get r c) (← n.get r c) : Except Err γ))
    fun r c hr hc => ⟨_, hf r c hr hc⟩
  obtain ⟨h1, h2⟩ := generate_ok hk
  refine ⟨k, hk, h1, fun r c hr hc => ?_⟩
  have := h2 r c hr hc
  rw [hf r c hr hc] at this
  exact (Except.ok.inj this).symm

/-- A list of computed matrices. -/
theorem generated {α : Type} [Inhabited α] {f : Nat → Nat → Except Err α} {g : Nat → Nat → α}
    (hf : ∀ r c, r < rows → c < cols → f r c = .ok (g r c)) :
    ∃ m, generate rows cols f = .ok m ∧ Shape rows cols m ∧ ∀ r c, r < rows → c < cols → m.at r c = g r c := by
  obtain ⟨m, hm⟩ := generate_total fun r c hr hc => ⟨_, hf r c hr hc⟩
  obtain ⟨h1, h2⟩ := generate_ok hm
  refine ⟨m, hm, h1, fun r c hr hc => ?_⟩
  have := h2 r c hr hc
  rw [hf r c hr hc] at this
  exact (Except.ok.inj this).symm

theorem zeroOrderMatrices_ok : ∀ {ys : List (Mat R)}, (∀ y ∈ ys, Shape rows cols y) →
    ∃ ms, zeroOrderMatrices ys = .ok ms ∧ (∀ m ∈ ms, Shape rows cols m) ∧
      ∀ r c, r < rows → c < cols → zeroOrderPieces (entriesAt ys r c) = ms.map fun m => m.at r c
  | a :: b :: rest, h => by
    have ha := h a (by simp)
    obtain ⟨ms, e, hs, he⟩ := zeroOrderMatrices_ok (ys := b :: rest) fun y hy => h y (by simp [List.mem_cons.1 hy])
    obtain ⟨m, hm, hms, hat⟩ := generated (f := fun r c => (do return ofCoefficients tVar [← a.get r c] : Except Err (Polynomial R)))
      (g := fun r c => ofCoefficients tVar [a.at r c]) fun r c hr hc => by rw [Mat.get_eq ha hr hc]; rfl
    refine ⟨m :: ms, ?_, ?_, fun r c hr hc => ?_⟩
    · rw [zeroOrderMatrices, ha.1, ha.2.1, hm, e]; rfl
    · intro n hn
      rcases List.mem_cons.1 hn with rfl | hn
      · exact hms
      · exact hs n hn
    · have := he r c hr hc
      simp only [entriesAt, List.map_cons] at this ⊢
      rw [zeroOrderPieces, this, hat r c hr hc]
  | [], _ => ⟨[], rfl, by simp, fun _ _ _ _ => rfl⟩
  | [_], _ => ⟨[], rfl, by simp, fun _ _ _ _ => rfl⟩

theorem firstOrderMatrices_ok : ∀ {ts : List R} {ys : List (Mat R)}, (∀ y ∈ ys, Shape rows cols y) →
    ∃ ms, firstOrderMatrices (ts.zip ys) = .ok ms ∧ (∀ m ∈ ms, Shape rows cols m) ∧
      ∀ r c, r < rows → c < cols → firstOrderPieces (ts.zip (entriesAt ys r c)) = ms.map fun m => m.at r c
  | t0 :: t1 :: ts, a :: b :: rest, h => by
    have ha := h a (by simp)
    have hb := h b (by simp)
    obtain ⟨ms, e, hs, he⟩ := firstOrderMatrices_ok (ts := t1 :: ts) (ys := b :: rest) fun y hy => h y (by simp [List.mem_cons.1 hy])
    obtain ⟨m, hm, hms, hat⟩ := generated
      (f := fun r c => (do return ofCoefficients tVar [← a.get r c, ((← b.get r c) - (← a.get r c)) / (t1 - t0)] :
        Except Err (Polynomial R)))
      (g := fun r c => ofCoefficients tVar [a.at r c, (b.at r c - a.at r c) / (t1 - t0)])
      fun r c hr hc => by rw [Mat.get_eq ha hr hc, Mat.get_eq hb hr hc]; rfl
    refine ⟨m :: ms, ?_, ?_, fun r c hr hc => ?_⟩
    · simp only [List.zip_cons_cons] at e ⊢
      simp only [firstOrderMatrices, ha.1, ha.2.1, hm, e]; rfl
    · intro n hn
      rcases List.mem_cons.1 hn with rfl | hn
      · exact hms
      · exact hs n hn
    · have := he r c hr hc
      simp only [entriesAt, List.map_cons, List.zip_cons_cons] at this ⊢
      rw [firstOrderPieces, this, hat r c hr hc]
  | [], _, _ => ⟨[], rfl, by simp, fun _ _ _ _ => rfl⟩
  | _ :: _, [], _ => ⟨[], rfl, by simp, fun _ _ _ _ => rfl⟩
  | [_], _ :: _, _ => ⟨[], by simp [firstOrderMatrices, pure, Except.pure], by simp, fun _ _ _ _ => by simp [entriesAt, firstOrderPieces]⟩
  | _ :: _ :: _, [_], _ => ⟨[], by simp [firstOrderMatrices, pure, Except.pure], by simp, fun _ _ _ _ => by simp [entriesAt, firstOrderPieces]⟩

theorem cubic_ok {dt : R} (h : ¬ dt < epsilonTime) (y0 y1 yd0 yd1 : R) : ∃ cs, cubicCoefficients dt y0 y1 yd0 yd1 = .ok cs := by
  unfold cubicCoefficients
  rw [throwUnless_pos h]
  exact ⟨_, rfl⟩

theorem timesIncrease_cons {a b : R} {rest : List R} (h : timesIncrease (a :: b :: rest) = true) :
    ¬ b - a < epsilonTime ∧ timesIncrease (b :: rest) = true := by
  simp only [timesIncrease, Bool.and_eq_true, decide_eq_true_eq] at h
  exact ⟨h.1.2, h.2⟩

theorem apart_of_increase : ∀ {ts : List R}, timesIncrease ts = true → breaksApart ts = true
  | a :: b :: rest, h => by
    obtain ⟨h1, h2⟩ := timesIncrease_cons h
    simp only [breaksApart, Bool.and_eq_true, decide_eq_true_eq]
    exact ⟨not_lt.1 h1, apart_of_increase h2⟩
  | [], _ => rfl
  | [_], _ => rfl

theorem hermiteMatrices_ok : ∀ {ts : List R} {ys yds : List (Mat R)}, timesIncrease ts = true → (∀ y ∈ ys, Shape rows cols y) →
    (∀ y ∈ yds, Shape rows cols y) →
    ∃ ms, hermiteMatrices (ts.zip (ys.zip yds)) = .ok ms ∧ (∀ m ∈ ms, Shape rows cols m) ∧
      ∀ r c, r < rows → c < cols →
        hermitePieces (ts.zip ((entriesAt ys r c).zip (entriesAt yds r c))) = .ok (ms.map fun m => m.at r c)
  | t0 :: t1 :: ts, a :: b :: rest, a' :: b' :: rest', ht, h, h' => by
    have ha := h a (by simp)
    have hb := h b (by simp)
    have ha' := h' a' (by simp)
    have hb' := h' b' (by simp)
    obtain ⟨hdt, ht'⟩ := timesIncrease_cons ht
    obtain ⟨ms, e, hs, he⟩ := hermiteMatrices_ok (ts := t1 :: ts) (ys := b :: rest) (yds := b' :: rest') ht'
      (fun y hy => h y (by simp [List.mem_cons.1 hy])) (fun y hy => h' y (by simp [List.mem_cons.1 hy]))
    have hcs : ∀ r c, ∃ cs, cubicCoefficients (t1 - t0) (a.at r c) (b.at r c) (a'.at r c) (b'.at r c) = .ok cs :=
      fun r c => cubic_ok hdt _ _ _ _
    choose cs hcs using hcs
    obtain ⟨m, hm, hms, hat⟩ := generated
      (f := fun r c => (do
        return ofCoefficients tVar (← cubicCoefficients (t1 - t0) (← a.get r c) (← b.get r c) (← a'.get r c) (← b'.get r c)) :
        Except Err (Polynomial R)))
      (g := fun r c => ofCoefficients tVar (cs r c))
      fun r c hr hc => by
        rw [Mat.get_eq ha hr hc, Mat.get_eq hb hr hc, Mat.get_eq ha' hr hc, Mat.get_eq hb' hr hc]
        simp only [bind, Except.bind, hcs r c]; rfl
    refine ⟨m :: ms, ?_, ?_, fun r c hr hc => ?_⟩
    · simp only [List.zip_cons_cons] at e ⊢
      simp only [hermiteMatrices, ha.1, ha.2.1, hm, e]; rfl
    · intro n hn
      rcases List.mem_cons.1 hn with rfl | hn
      · exact hms
      · exact hs n hn
    · have := he r c hr hc
      simp only [entriesAt, List.map_cons, List.zip_cons_cons] at this ⊢
      simp only [hermitePieces, hcs r c, this, hat r c hr hc, bind, Except.bind, pure, Except.pure]
  | [], _, _, _, _, _ => ⟨[], rfl, by simp, fun _ _ _ _ => rfl⟩
  | _ :: _, [], _, _, _, _ => ⟨[], rfl, by simp, fun _ _ _ _ => rfl⟩
  | _ :: _, _ :: _, [], _, _, _ => ⟨[], rfl, by simp, fun _ _ _ _ => rfl⟩
  | [_], _ :: _, _ :: _, _, _, _ =>
    ⟨[], by simp [hermiteMatrices, pure, Except.pure], by simp, fun _ _ _ _ => by simp [entriesAt, hermitePieces, pure, Except.pure]⟩
  | _ :: _ :: _, [_], _ :: _, _, _, _ =>
    ⟨[], by simp [hermiteMatrices, pure, Except.pure], by simp, fun _ _ _ _ => by simp [entriesAt, hermitePieces, pure, Except.pure]⟩
  | _ :: _ :: _, _ :: _ :: _, [_], _, _, _ =>
    ⟨[], by simp [hermiteMatrices, pure, Except.pure], by simp, fun _ _ _ _ => by simp [entriesAt, hermitePieces, pure, Except.pure]⟩

theorem matrixMake_total {ms : List (Mat (Polynomial R))} (h : ∀ m ∈ ms, Shape rows cols m) {bs : List R} (hb : breaksApart bs = true) :
    MP.make ms bs = .ok ⟨bs, ms⟩ := by
  unfold MP.make
  rw [if_neg (by simp [hb])]
  cases ms with
  | nil => rfl
  | cons m ms =>
    dsimp only
    rw [if_pos]
    · rfl
    · rw [List.all_eq_true]
      intro n hn
      have h1 := h m (by simp)
      have h2 := h n (by simp [hn])
      simp [h1.1, h1.2.1, h2.1, h2.2.1]

theorem slopeMatrix_ok {a b : R × Mat R} (ha : Shape rows cols a.2) (hb : Shape rows cols b.2) :
    ∃ k, slopeMatrix a b = .ok k ∧ Shape rows cols k ∧
      ∀ r c, r < rows → c < cols → k.at r c = slopeOf (a.1, a.2.at r c) (b.1, b.2.at r c) :=
  zip_total _ ha hb

theorem innerSlopeMatrices_ok : ∀ {ts : List R} {ys : List (Mat R)}, (∀ y ∈ ys, Shape rows cols y) →
    ∃ ms, innerSlopeMatrices (ts.zip ys) = .ok ms ∧ (∀ m ∈ ms, Shape rows cols m) ∧
      ∀ r c, r < rows → c < cols → innerSlopes (ts.zip (entriesAt ys r c)) = entriesAt ms r c
  | t0 :: t1 :: t2 :: ts, y0 :: y1 :: y2 :: ys, h => by
    obtain ⟨s0, e0, h0, a0⟩ := slopeMatrix_ok (a := (t0, y0)) (b := (t1, y1)) (h y0 (by simp)) (h y1 (by simp))
    obtain ⟨s1, e1, h1, a1⟩ := slopeMatrix_ok (a := (t1, y1)) (b := (t2, y2)) (h y1 (by simp)) (h y2 (by simp))
    obtain ⟨m, e, hm, am⟩ := zip_total (innerSlope (t1 - t0) (t2 - t1)) h0 h1
    obtain ⟨ms, e', hs, he⟩ := innerSlopeMatrices_ok (ts := t1 :: t2 :: ts) (ys := y1 :: y2 :: ys)
      fun y hy => h y (List.mem_cons_of_mem _ hy)
    refine ⟨m :: ms, ?_, ?_, fun r c hr hc => ?_⟩
    · simp only [List.zip_cons_cons] at e' ⊢
      simp only [innerSlopeMatrices, e0, e1, e, e', bind, Except.bind, pure, Except.pure]
    · intro n hn
      rcases List.mem_cons.1 hn with rfl | hn
      · exact hm
      · exact hs n hn
    · have := he r c hr hc
      simp only [entriesAt, List.map_cons, List.zip_cons_cons] at this ⊢
      simp only [innerSlopes, this, am r c hr hc, a0 r c hr hc, a1 r c hr hc]
  | [], _, _ => ⟨[], rfl, by simp, fun _ _ _ _ => rfl⟩
  | _ :: _, [], _ => ⟨[], rfl, by simp, fun _ _ _ _ => rfl⟩
  | [_], _ :: _, _ => ⟨[], by simp [innerSlopeMatrices, pure, Except.pure], by simp, fun _ _ _ _ => by simp [entriesAt, innerSlopes]⟩
  | _ :: _ :: _, [_], _ => ⟨[], by simp [innerSlopeMatrices, pure, Except.pure], by simp, fun _ _ _ _ => by simp [entriesAt, innerSlopes]⟩
  | [_, _], _ :: _ :: _, _ => ⟨[], by simp [innerSlopeMatrices, pure, Except.pure], by simp, fun _ _ _ _ => by simp [entriesAt, innerSlopes]⟩
  | _ :: _ :: _ :: _, [_, _], _ =>
    ⟨[], by simp [innerSlopeMatrices, pure, Except.pure], by simp, fun _ _ _ _ => by simp [entriesAt, innerSlopes]⟩

theorem startSlopeMatrix_ok {ts : List R} {ys : List (Mat R)} (hl : 3 ≤ ts.length) (hl' : ts.length = ys.length)
    (h : ∀ y ∈ ys, Shape rows cols y) :
    ∃ k, startSlopeMatrix (ts.zip ys) = .ok k ∧ Shape rows cols k ∧
      ∀ r c, r < rows → c < cols → startSlope (ts.zip (entriesAt ys r c)) = .ok (k.at r c) := by
  obtain ⟨t0, t1, t2, ts, rfl⟩ : ∃ a b c l, ts = a :: b :: c :: l := by
    match ts, hl with
    | a :: b :: c :: l, _ => exact ⟨a, b, c, l, rfl⟩
  obtain ⟨y0, y1, y2, ys, rfl⟩ : ∃ a b c l, ys = a :: b :: c :: l := by
    match ys, hl' with
    | a :: b :: c :: l, _ => exact ⟨a, b, c, l, rfl⟩
  obtain ⟨s0, e0, h0, a0⟩ := slopeMatrix_ok (a := (t0, y0)) (b := (t1, y1)) (h y0 (by simp)) (h y1 (by simp))
  obtain ⟨s1, e1, h1, a1⟩ := slopeMatrix_ok (a := (t1, y1)) (b := (t2, y2)) (h y1 (by simp)) (h y2 (by simp))
  obtain ⟨m, e, hm, am⟩ := zip_total (endSlope (t1 - t0) (t2 - t1)) h0 h1
  refine ⟨m, ?_, hm, fun r c hr hc => ?_⟩
  · simp only [List.zip_cons_cons, startSlopeMatrix, e0, e1, bind, Except.bind, endSlopeMatrix, e]
  · simp only [entriesAt, List.map_cons, List.zip_cons_cons, startSlope, am r c hr hc, a0 r c hr hc, a1 r c hr hc, pure, Except.pure]

theorem zip_reverse {α β : Type} : ∀ (as : List α) (bs : List β), as.length = bs.length →
    (as.zip bs).reverse = as.reverse.zip bs.reverse := fun _ _ h =>
  List.reverse_zipWith h

theorem finalSlopeMatrix_ok {ts : List R} {ys : List (Mat R)} (hl : 3 ≤ ts.length) (hl' : ts.length = ys.length)
    (h : ∀ y ∈ ys, Shape rows cols y) :
    ∃ k, finalSlopeMatrix (ts.zip ys) = .ok k ∧ Shape rows cols k ∧
      ∀ r c, r < rows → c < cols → finalSlope (ts.zip (entriesAt ys r c)) = .ok (k.at r c) := by
  obtain ⟨t0, t1, t2, ts, rfl⟩ : ∃ a b c l, ts = a :: b :: c :: l := by
    match ts, hl with
    | a :: b :: c :: l, _ => exact ⟨a, b, c, l, rfl⟩
  obtain ⟨y0, y1, y2, ys, rfl⟩ : ∃ a b c l, ys = a :: b :: c :: l := by
    match ys, hl' with
    | a :: b :: c :: l, _ => exact ⟨a, b, c, l, rfl⟩
  obtain ⟨s0, e0, h0, a0⟩ := slopeMatrix_ok (a := (t1, y1)) (b := (t0, y0)) (h y1 (by simp)) (h y0 (by simp))
  obtain ⟨s1, e1, h1, a1⟩ := slopeMatrix_ok (a := (t2, y2)) (b := (t1, y1)) (h y2 (by simp)) (h y1 (by simp))
  obtain ⟨m, e, hm, am⟩ := zip_total (endSlope (t0 - t1) (t1 - t2)) h0 h1
  refine ⟨m, ?_, hm, fun r c hr hc => ?_⟩
  · simp only [List.zip_cons_cons, finalSlopeMatrix, e0, e1, bind, Except.bind, endSlopeMatrix, e]
  · simp only [entriesAt, List.map_cons, List.zip_cons_cons, finalSlope, am r c hr hc, a0 r c hr hc, a1 r c hr hc, pure, Except.pure]

theorem zeroMatrix_ok {ts : List R} {ys : List (Mat R)} (hl : 0 < ts.length) (hl' : ts.length = ys.length)
    (h : ∀ y ∈ ys, Shape rows cols y) :
    ∃ k, zeroMatrix (ts.zip ys) = .ok k ∧ Shape rows cols k ∧ ∀ r c, r < rows → c < cols → k.at r c = (0 : R) := by
  match ts, ys, hl, hl' with
  | t :: ts, y :: ys, _, _ =>
    have hy := h y (by simp)
    refine ⟨_, rfl, ⟨hy.1, hy.2.1, by simp [hy.1, hy.2.1]⟩, fun r c hr hc => ?_⟩
    have := index_lt hr hc
    simp [Mat.at, hy.1, hy.2.1, List.getD_eq_getElem?_getD, this]

theorem checkInput_ok {times ys : List R} {n : Nat} (h : checkInput times ys n = .ok ()) :
    times.length = ys.length ∧ n ≤ times.length ∧ timesIncrease times = true := by
  simp only [checkInput, bind_ok, throwUnless_ok, decide_eq_true_eq] at h
  obtain ⟨_, h1, _, h2, h3⟩ := h
  exact ⟨h1, h2, h3⟩

/-- What is made from shaped matrices. -/
theorem lifts_ok {ms : List (Mat (Polynomial R))} (hs : ∀ m ∈ ms, Shape rows cols m) {times : List R}
    (ht : timesIncrease times = true) {entries : Nat → Nat → Except Err (PP R)}
    (he : ∀ r c, r < rows → c < cols → entries r c = Piecewise.make (ms.map fun m => m.at r c) times) :
    Lifts rows cols (MP.make ms times) entries := by
  rw [matrixMake_total hs (apart_of_increase ht)]
  refine ⟨hs, fun r c hr hc => ?_⟩
  have hq : Shaped rows cols (⟨times, ms⟩ : MP R) := hs
  rw [he r c hr hc, entry_eq hq hr hc, Piecewise.make, if_pos (apart_of_increase ht)]
  rfl

theorem zeroOrderHold_lifts {ys : List (Mat R)} (h : ∀ y ∈ ys, Shape rows cols y) (hr0 : 0 < rows) (hc0 : 0 < cols) (times : List R) :
    Lifts rows cols (MP.zeroOrderHold times ys) fun r c => (column ys r c).bind (zeroOrderHold times) := by
  unfold MP.zeroOrderHold
  cases hk : checkMatrices times ys 2 with
  | error e =>
    intro r c hr hc
    dsimp only
    rw [column_eq h hr hc]
    simp only [Except.bind, zeroOrderHold, ← checkMatrices_eq h hr0 hc0 times 2 (by decide) r c, hk, bind]
  | ok u =>
    obtain ⟨ms, e, hs, he⟩ := zeroOrderMatrices_ok h
    obtain ⟨_, _, ht⟩ := checkInput_ok ((checkMatrices_eq h hr0 hc0 times 2 (by decide) 0 0).symm.trans hk)
    simp only [bind, Except.bind, e]
    refine lifts_ok hs ht fun r c hr hc => ?_
    rw [column_eq h hr hc]
    simp only [zeroOrderHold, ← checkMatrices_eq h hr0 hc0 times 2 (by decide) r c, hk, bind, Except.bind, he r c hr hc]

theorem firstOrderHold_lifts {ys : List (Mat R)} (h : ∀ y ∈ ys, Shape rows cols y) (hr0 : 0 < rows) (hc0 : 0 < cols) (times : List R) :
    Lifts rows cols (MP.firstOrderHold times ys) fun r c => (column ys r c).bind (firstOrderHold times) := by
  unfold MP.firstOrderHold
  cases hk : checkMatrices times ys 2 with
  | error e =>
    intro r c hr hc
    dsimp only
    rw [column_eq h hr hc]
    simp only [Except.bind, firstOrderHold, ← checkMatrices_eq h hr0 hc0 times 2 (by decide) r c, hk, bind]
  | ok u =>
    obtain ⟨ms, e, hs, he⟩ := firstOrderMatrices_ok (ts := times) h
    obtain ⟨_, _, ht⟩ := checkInput_ok ((checkMatrices_eq h hr0 hc0 times 2 (by decide) 0 0).symm.trans hk)
    simp only [bind, Except.bind, e]
    refine lifts_ok hs ht fun r c hr hc => ?_
    rw [column_eq h hr hc]
    simp only [firstOrderHold, ← checkMatrices_eq h hr0 hc0 times 2 (by decide) r c, hk, bind, Except.bind, he r c hr hc]

theorem cubicHermite_lifts {ys yds : List (Mat R)} (h : ∀ y ∈ ys, Shape rows cols y) (h' : ∀ y ∈ yds, Shape rows cols y)
    (hr0 : 0 < rows) (hc0 : 0 < cols) (times : List R) :
    Lifts rows cols (MP.cubicHermite times ys yds) fun r c =>
      (column ys r c).bind fun y => (column yds r c).bind fun yd => cubicHermite times y yd := by
  unfold MP.cubicHermite
  have hlen : ∀ r c, (entriesAt yds r c).length = yds.length := fun r c => by simp [entriesAt]
  cases hk : checkMatrices times ys 2 with
  | error e =>
    intro r c hr hc
    dsimp only
    rw [column_eq h hr hc, column_eq h' hr hc]
    simp only [Except.bind, cubicHermite, ← checkMatrices_eq h hr0 hc0 times 2 (by decide) r c, hk, bind]
  | ok u =>
    obtain ⟨hl, hn, ht⟩ := checkInput_ok ((checkMatrices_eq h hr0 hc0 times 2 (by decide) 0 0).symm.trans hk)
    by_cases hly : times.length = yds.length
    · have hall : (yds.all fun z => ys.head?.any fun y => z.rows == y.rows && z.cols == y.cols) = true := by
        rw [List.all_eq_true]
        intro z hz
        cases ys with
        | nil => simp [entriesAt] at hl; simp [hl] at hn
        | cons y ys =>
          have h1 := h y (by simp)
          have h2 := h' z hz
          simp [h1.1, h1.2.1, h2.1, h2.2.1]
      obtain ⟨ms, e, hs, he⟩ := hermiteMatrices_ok (ts := times) ht h h'
      simp only [bind, Except.bind, e, throwUnless_pos hly, hall]
      refine lifts_ok hs ht fun r c hr hc => ?_
      rw [column_eq h hr hc, column_eq h' hr hc]
      simp only [cubicHermite, ← checkMatrices_eq h hr0 hc0 times 2 (by decide) r c, hk, bind, Except.bind, he r c hr hc, hlen,
        throwUnless_pos hly]
    · simp only [bind, Except.bind, throwUnless_neg hly]
      intro r c hr hc
      dsimp only
      rw [column_eq h hr hc, column_eq h' hr hc]
      simp only [cubicHermite, ← checkMatrices_eq h hr0 hc0 times 2 (by decide) r c, hk, bind, Except.bind, hlen, throwUnless_neg hly]

theorem cubicShapePreserving_lifts {ys : List (Mat R)} (h : ∀ y ∈ ys, Shape rows cols y) (hr0 : 0 < rows) (hc0 : 0 < cols)
    (times : List R) (zeroEnds : Bool) :
    Lifts rows cols (MP.cubicShapePreserving times ys zeroEnds) fun r c =>
      (column ys r c).bind fun y => cubicShapePreserving times y zeroEnds := by
  have hn0 : 0 < (if zeroEnds then 2 else 3) := by cases zeroEnds <;> decide
  unfold MP.cubicShapePreserving
  cases hk : checkMatrices times ys (if zeroEnds then 2 else 3) with
  | error e =>
    intro r c hr hc
    dsimp only
    rw [column_eq h hr hc]
    simp only [Except.bind, cubicShapePreserving, ← checkMatrices_eq h hr0 hc0 times _ hn0 r c, hk, bind]
  | ok u =>
    obtain ⟨hl, hn, ht⟩ := checkInput_ok ((checkMatrices_eq h hr0 hc0 times _ hn0 0 0).symm.trans hk)
    have hl : times.length = ys.length := by simpa [entriesAt] using hl
    obtain ⟨first, ef, sf, af⟩ : ∃ k, (if zeroEnds then zeroMatrix (times.zip ys) else startSlopeMatrix (times.zip ys)) = .ok k ∧
        Shape rows cols k ∧ ∀ r c, r < rows → c < cols →
          (if zeroEnds then (pure 0 : Except Err R) else startSlope (times.zip (entriesAt ys r c))) = .ok (k.at r c) := by
      cases zeroEnds with
      | true =>
        obtain ⟨k, h1, h2, h3⟩ := zeroMatrix_ok (lt_of_lt_of_le (by decide) hn) hl h
        exact ⟨k, h1, h2, fun r c hr hc => by rw [h3 r c hr hc]; rfl⟩
      | false => exact startSlopeMatrix_ok hn hl h
    obtain ⟨last, el, sl, al⟩ : ∃ k, (if zeroEnds then zeroMatrix (times.zip ys) else finalSlopeMatrix (times.zip ys).reverse) = .ok k ∧
        Shape rows cols k ∧ ∀ r c, r < rows → c < cols →
          (if zeroEnds then (pure 0 : Except Err R) else finalSlope (times.zip (entriesAt ys r c)).reverse) = .ok (k.at r c) := by
      cases zeroEnds with
      | true =>
        obtain ⟨k, h1, h2, h3⟩ := zeroMatrix_ok (lt_of_lt_of_le (by decide) hn) hl h
        exact ⟨k, h1, h2, fun r c hr hc => by rw [h3 r c hr hc]; rfl⟩
      | false =>
        obtain ⟨k, h1, h2, h3⟩ := finalSlopeMatrix_ok (ts := times.reverse) (ys := ys.reverse) (by simpa using hn) (by simpa using hl)
          fun y hy => h y (by simpa using hy)
        refine ⟨k, by rw [zip_reverse _ _ hl]; exact h1, h2, fun r c hr hc => ?_⟩
        have := h3 r c hr hc
        simp only [Bool.false_eq_true, if_false]
        rw [zip_reverse _ _ (by simpa [entriesAt] using hl)]
        simpa [entriesAt, List.map_reverse] using this
    obtain ⟨inner, ei, si, ai⟩ := innerSlopeMatrices_ok (ts := times) h
    obtain ⟨ms, e, hs, he⟩ := hermiteMatrices_ok (ts := times) (yds := first :: inner ++ [last]) ht h (by
      intro y hy
      simp only [List.cons_append, List.mem_cons, List.mem_append, List.not_mem_nil, or_false] at hy
      rcases hy with rfl | hy | rfl
      · exact sf
      · exact si y hy
      · exact sl)
    simp only [bind, Except.bind, ef, el, ei, e]
    refine lifts_ok hs ht fun r c hr hc => ?_
    rw [column_eq h hr hc]
    have hx := he r c hr hc
    have hcat : entriesAt (first :: inner ++ [last]) r c = first.at r c :: entriesAt inner r c ++ [last.at r c] := by
      simp [entriesAt]
    rw [hcat, ← ai r c hr hc] at hx
    simp only [cubicShapePreserving, ← checkMatrices_eq h hr0 hc0 times _ hn0 r c, hk, bind, Except.bind, af r c hr hc, al r c hr hc, hx]

/-- Samples of different sizes are refused. -/
theorem checkMatrices_shapes {times : List R} {ys : List (Mat R)} {n : Nat} (h : checkMatrices times ys n = .ok ()) :
    ∃ rows cols, 0 < rows ∧ 0 < cols ∧ ∀ y ∈ ys, y.rows = rows ∧ y.cols = cols := by
  unfold checkMatrices at h
  simp only [bind_ok] at h
  obtain ⟨_, _, _, _, h⟩ := h
  cases ys with
  | nil => cases h
  | cons y ys =>
    simp only [bind_ok, throwUnless_ok, decide_eq_true_eq] at h
    obtain ⟨_, ⟨h1, h2⟩, _, h3, _⟩ := h
    refine ⟨y.rows, y.cols, h1, h2, fun z hz => ?_⟩
    have := List.all_eq_true.1 h3 z hz
    simpa using this

/-- Entries that are not written are zero. -/
def Silent : List Bool → List R → Prop
  | w :: ws, x :: xs => (w = false → x = 0) ∧ Silent ws xs
  | [], [] => True
  | _, _ => False

theorem silent_append {vs ws : List Bool} {xs zs : List R} : Silent vs xs → Silent ws zs → Silent (vs ++ ws) (xs ++ zs) := by
  induction vs generalizing xs with
  | nil => cases xs with
    | nil => exact fun _ h => h
    | cons x xs => exact fun h => h.elim
  | cons v vs ih => cases xs with
    | nil => exact fun h => h.elim
    | cons x xs => exact fun h h' => ⟨h.1, ih h.2 h'⟩

theorem silent_flatMap {α : Type} (f : α → List Bool) (g : α → List R) : ∀ {l : List α}, (∀ a ∈ l, Silent (f a) (g a)) →
    Silent (l.flatMap f) (l.flatMap g)
  | [], _ => trivial
  | a :: l, h => by
    rw [List.flatMap_cons, List.flatMap_cons]
    exact silent_append (h a (by simp)) (silent_flatMap f g fun b hb => h b (by simp [hb]))

theorem silent_zero : ∀ ws : List Bool, Silent ws (List.replicate ws.length (0 : R))
  | [] => trivial
  | _ :: ws => ⟨fun _ => rfl, silent_zero ws⟩

theorem fill_eq : ∀ {b : List R} {rows : List (Row R)} {ws : List Bool}, Silent ws b → Silent ws (rows.map Row.rhs) →
    fill b rows ws = rows.map Row.rhs
  | x :: b, row :: rows, w :: ws, h, h' => by
    rw [fill, List.map_cons, fill_eq h.2 h'.2]
    cases w with
    | true => rfl
    | false => rw [h.1 rfl, show row.rhs = 0 from h'.1 rfl]; rfl
  | [], [], [], _, _ => rfl
  | _ :: _, _, [], h, _ => h.elim
  | [], _, _ :: _, h, _ => h.elim
  | [], _ :: _, [], _, h => h.elim
  | _ :: _, [], _ :: _, _, h => h.elim

theorem withRhs_eq : ∀ rows : List (Row R), withRhs rows (rows.map Row.rhs) = rows
  | [] => rfl
  | row :: rows => by rw [List.map_cons, withRhs, withRhs_eq]

theorem interior_silent (times ys : List R) (e0 e1 : Row R) :
    Silent (writtenRows times.length) ((interiorRows times ys ++ [e0, e1]).map Row.rhs) := by
  rw [List.map_append]
  refine silent_append ?_ ⟨nofun, nofun, trivial⟩
  rw [interiorRows, List.map_flatMap]
  refine silent_flatMap _ _ fun i _ => ?_
  dsimp only
  split
  · exact ⟨nofun, fun _ => rfl, fun _ => rfl, trivial⟩
  · exact ⟨nofun, trivial⟩

theorem written_length {n : Nat} (hn : 2 ≤ n) : (writtenRows n).length = 3 * (n - 1) := by
  obtain ⟨m, rfl⟩ : ∃ m, n = m + 2 := ⟨n - 2, by omega⟩
  have : ∀ k ≤ m, ((List.range k).flatMap fun i => true :: if i ≠ m then [false, false] else []).length = 3 * k := by
    intro k
    induction k with
    | zero => intro _; rfl
    | succ k ih =>
      intro hk
      rw [List.range_succ, List.flatMap_append, List.length_append, ih (by omega), List.flatMap_singleton, if_pos (by omega)]
      simp; omega
  rw [writtenRows, show m + 2 - 1 = m + 1 by omega, show m + 2 - 2 = m by omega, List.range_succ, List.flatMap_append, List.length_append,
    List.length_append, this m le_rfl, List.flatMap_singleton]
  simp; omega

theorem solveEntries_ok {solve : Solver R} {n : Nat} {rowsOf : Nat → Nat → Except Err (List (Row R))} {g : Nat → Nat → List (Row R)} :
    ∀ {l : List (Nat × Nat)} {b : List R}, Silent (writtenRows n) b →
      (∀ p ∈ l, rowsOf p.1 p.2 = .ok (g p.1 p.2) ∧ Silent (writtenRows n) ((g p.1 p.2).map Row.rhs)) →
      solveEntries solve n rowsOf l b = .ok (l.map fun p => solve (3 * (n - 1)) (g p.1 p.2))
  | [], _, _, _ => rfl
  | (r, c) :: l, b, hb, h => by
    obtain ⟨h1, h2⟩ := h (r, c) (by simp)
    have hf := fill_eq hb h2
    simp only [solveEntries, h1, bind, Except.bind, hf, withRhs_eq]
    rw [solveEntries_ok h2 fun p hp => h p (by simp [hp])]
    rfl

theorem rowByRow_get {rows cols r c : Nat} (hr : r < rows) (hc : c < cols) : (rowByRow rows cols)[r * cols + c]? = some (r, c) := by
  unfold rowByRow
  induction rows generalizing r with
  | zero => omega
  | succ rows ih =>
    rw [List.range_succ, List.flatMap_append, List.flatMap_singleton]
    have hlen : ((List.range rows).flatMap fun j => (List.range cols).map fun k => (j, k)).length = rows * cols := by
      clear ih hr
      induction rows with
      | zero => simp
      | succ rows ih => rw [List.range_succ, List.flatMap_append, List.length_append, ih, List.flatMap_singleton]; simp; ring
    by_cases e : r < rows
    · rw [List.getElem?_append_left]
      · exact ih e
      · rw [hlen]
        calc r * cols + c < r * cols + cols := by omega
          _ = (r + 1) * cols := by ring
          _ ≤ rows * cols := Nat.mul_le_mul_right _ e
    · obtain rfl : r = rows := by omega
      rw [List.getElem?_append_right (by rw [hlen]; omega), hlen]
      simp [hc]

theorem rowByRow_mem {rows cols : Nat} {p : Nat × Nat} (h : p ∈ rowByRow rows cols) : p.1 < rows ∧ p.2 < cols := by
  simp only [rowByRow, List.mem_flatMap, List.mem_range, List.mem_map] at h
  obtain ⟨j, hj, k, hk, rfl⟩ := h
  exact ⟨hj, hk⟩

theorem splineMatrices_ok {ys : List (Mat R)} (h : ∀ y ∈ ys, Shape rows cols y) (f : Nat → Nat → Nat → R) :
    ∀ {l : List Nat}, (∀ i ∈ l, i < ys.length) →
    ∃ ms, (l.mapM fun i => generate rows cols fun r c => do
        let s ← nth ((rowByRow rows cols).map fun p => f p.1 p.2) (r * cols + c)
        return ofCoefficients tVar [← (← nth ys i).get r c, s (3 * i), s (3 * i + 1), s (3 * i + 2)]) = .ok ms ∧
      (∀ m ∈ ms, Shape rows cols m) ∧ ∀ r c, r < rows → c < cols →
        (l.map fun i => ofCoefficients tVar [(entriesAt ys r c).getD i 0, f r c (3 * i), f r c (3 * i + 1), f r c (3 * i + 2)]) =
          ms.map fun m => m.at r c
  | [], _ => ⟨[], rfl, by simp, fun _ _ _ _ => rfl⟩
  | i :: l, hl => by
    obtain ⟨ms, e, hs, he⟩ := splineMatrices_ok h f (l := l) fun j hj => hl j (by simp [hj])
    have hi := hl i (by simp)
    have hy := h ys[i] (List.getElem_mem hi)
    obtain ⟨m, hm, hms, hat⟩ := generated
      (f := fun r c => (do
        let s ← nth ((rowByRow rows cols).map fun p => f p.1 p.2) (r * cols + c)
        return ofCoefficients tVar [← (← nth ys i).get r c, s (3 * i), s (3 * i + 1), s (3 * i + 2)] : Except Err (Polynomial R)))
      (g := fun r c => ofCoefficients tVar [(entriesAt ys r c).getD i 0, f r c (3 * i), f r c (3 * i + 1), f r c (3 * i + 2)])
      fun r c hr hc => by
        have h1 : nth ((rowByRow rows cols).map fun p => f p.1 p.2) (r * cols + c) = .ok (f r c) := by
          unfold nth
          rw [List.getElem?_map, rowByRow_get hr hc]; rfl
        have h2 : nth ys i = .ok ys[i] := by unfold nth; rw [List.getElem?_eq_getElem hi]
        have h3 : (entriesAt ys r c).getD i 0 = ys[i].at r c := by
          simp [entriesAt, List.getD_eq_getElem?_getD, List.getElem?_eq_getElem hi]
        simp only [h1, h2, h3, bind, Except.bind, Mat.get_eq hy hr hc, pure, Except.pure]
    refine ⟨m :: ms, mapM_cons_ok.2 ⟨m, ms, hm, e, rfl⟩, ?_, fun r c hr hc => ?_⟩
    · intro n hn
      rcases List.mem_cons.1 hn with rfl | hn
      · exact hms
      · exact hs n hn
    · rw [List.map_cons, List.map_cons, he r c hr hc, hat r c hr hc]

theorem nth_zero {ys : List (Mat R)} (h : ∀ y ∈ ys, Shape rows cols y) (hl : 0 < ys.length) :
    ∃ y, nth ys 0 = .ok y ∧ y.rows = rows ∧ y.cols = cols := by
  cases ys with
  | nil => simp at hl
  | cons y ys => exact ⟨y, rfl, (h y (by simp)).1, (h y (by simp)).2.1⟩

/-- The part that both kinds of splines with continuous second derivatives share. -/
theorem splines_lifts (solve : Solver R) {ys : List (Mat R)} (h : ∀ y ∈ ys, Shape rows cols y) {times : List R}
    (hl : times.length = ys.length) (hn : 2 ≤ times.length) (ht : timesIncrease times = true)
    {rowsOf : Nat → Nat → Except Err (List (Row R))} {e0 e1 : Nat → Nat → Row R}
    (hrows : ∀ r c, r < rows → c < cols → rowsOf r c = .ok (interiorRows times (entriesAt ys r c) ++ [e0 r c, e1 r c]))
    {entries : Nat → Nat → Except Err (PP R)}
    (he : ∀ r c, r < rows → c < cols → entries r c = Piecewise.make (splinePieces (entriesAt ys r c) (times.length - 1)
      (solve (3 * (times.length - 1)) (interiorRows times (entriesAt ys r c) ++ [e0 r c, e1 r c]))) times) :
    Lifts rows cols ((solveEntries solve times.length rowsOf (rowByRow rows cols) (List.replicate (3 * (times.length - 1)) 0)).bind
      fun solutions => (splineMatrices rows cols ys (times.length - 1) solutions).bind fun ms => MP.make ms times) entries := by
  have hb : Silent (writtenRows times.length) (List.replicate (3 * (times.length - 1)) (0 : R)) := by
    rw [← written_length hn]; exact silent_zero _
  rw [solveEntries_ok (g := fun r c => interiorRows times (entriesAt ys r c) ++ [e0 r c, e1 r c]) hb fun p hp =>
    ⟨hrows _ _ (rowByRow_mem hp).1 (rowByRow_mem hp).2, interior_silent _ _ _ _⟩]
  obtain ⟨ms, e, hs, hat⟩ := splineMatrices_ok h
    (fun r c => solve (3 * (times.length - 1)) (interiorRows times (entriesAt ys r c) ++ [e0 r c, e1 r c]))
    (l := List.range (times.length - 1)) fun i hi => by have := List.mem_range.1 hi; omega
  simp only [Except.bind, splineMatrices, e]
  refine lifts_ok hs ht fun r c hr hc => ?_
  rw [he r c hr hc, ← hat r c hr hc]
  rfl

theorem cubicClamped_lifts (solve : Solver R) {ys : List (Mat R)} {d0 d1 : Mat R} (h : ∀ y ∈ ys, Shape rows cols y)
    (h0 : Shape rows cols d0) (h1 : Shape rows cols d1) (hr0 : 0 < rows) (hc0 : 0 < cols) (times : List R) :
    Lifts rows cols (MP.cubicClamped solve times ys d0 d1) fun r c =>
      (column ys r c).bind fun y => (d0.get r c).bind fun a => (d1.get r c).bind fun b => cubicClamped solve times y a b := by
  unfold MP.cubicClamped
  cases hk : checkMatrices times ys 2 with
  | error e =>
    intro r c hr hc
    dsimp only
    rw [column_eq h hr hc, Mat.get_eq h0 hr hc, Mat.get_eq h1 hr hc]
    simp only [Except.bind, cubicClamped, ← checkMatrices_eq h hr0 hc0 times 2 (by decide) r c, hk, bind]
  | ok u =>
    obtain ⟨hl, hn, ht⟩ := checkInput_ok ((checkMatrices_eq h hr0 hc0 times 2 (by decide) 0 0).symm.trans hk)
    have hl : times.length = ys.length := by simpa [entriesAt] using hl
    obtain ⟨y, hy, yr, yc⟩ := nth_zero h (by omega)
    have k0 : d0.rows = rows ∧ d0.cols = cols := ⟨h0.1, h0.2.1⟩
    have k1 : d1.rows = rows ∧ d1.cols = cols := ⟨h1.1, h1.2.1⟩
    have hx := splines_lifts solve h hl hn ht
      (rowsOf := fun r c => (do
        let column ← ys.mapM fun y => y.get r c
        return interiorRows times column ++ clampedRows times (← d0.get r c) (← d1.get r c)))
      (e0 := fun r c => (clampedRows times (d0.at r c) (d1.at r c))[0]'(by simp [clampedRows]))
      (e1 := fun r c => (clampedRows times (d0.at r c) (d1.at r c))[1]'(by simp [clampedRows]))
      (fun r c hr hc => by
        have := column_eq h hr hc
        unfold column at this
        simp only [this, Mat.get_eq h0 hr hc, Mat.get_eq h1 hr hc, bind, Except.bind]; rfl)
      (entries := fun r c =>
        (column ys r c).bind fun y => (d0.get r c).bind fun a => (d1.get r c).bind fun b => cubicClamped solve times y a b)
      (fun r c hr hc => by
        rw [column_eq h hr hc, Mat.get_eq h0 hr hc, Mat.get_eq h1 hr hc]
        simp only [Except.bind, cubicClamped, ← checkMatrices_eq h hr0 hc0 times 2 (by decide) r c, hk, bind]; rfl)
    simp only [bind, Except.bind, hy, throwUnless_pos k0, throwUnless_pos k1, yr, yc] at hx ⊢
    exact hx

theorem cubicEnds_lifts (solve : Solver R) {ys : List (Mat R)} (h : ∀ y ∈ ys, Shape rows cols y) (hr0 : 0 < rows) (hc0 : 0 < cols)
    (times : List R) (periodic : Bool) :
    Lifts rows cols (MP.cubicEnds solve times ys periodic) fun r c =>
      (column ys r c).bind fun y => cubicEnds solve times y periodic := by
  unfold MP.cubicEnds
  cases hk : checkMatrices times ys 3 with
  | error e =>
    intro r c hr hc
    dsimp only
    rw [column_eq h hr hc]
    simp only [Except.bind, cubicEnds, ← checkMatrices_eq h hr0 hc0 times 3 (by decide) r c, hk, bind]
  | ok u =>
    obtain ⟨hl, hn, ht⟩ := checkInput_ok ((checkMatrices_eq h hr0 hc0 times 3 (by decide) 0 0).symm.trans hk)
    have hl : times.length = ys.length := by simpa [entriesAt] using hl
    obtain ⟨y, hy, yr, yc⟩ := nth_zero h (by omega)
    obtain ⟨e0, e1, hends⟩ : ∃ e0 e1, endRows times periodic = [e0, e1] := by
      unfold endRows
      dsimp only
      split
      · exact ⟨_, _, rfl⟩
      · split <;> exact ⟨_, _, rfl⟩
    have hx := splines_lifts solve h hl (by omega) ht
      (rowsOf := fun r c => (do
        let column ← ys.mapM fun y => y.get r c
        return interiorRows times column ++ endRows times periodic))
      (e0 := fun _ _ => e0) (e1 := fun _ _ => e1)
      (fun r c hr hc => by
        have := column_eq h hr hc
        unfold column at this
        simp only [this, bind, Except.bind, hends]; rfl)
      (entries := fun r c => (column ys r c).bind fun y => cubicEnds solve times y periodic)
      (fun r c hr hc => by
        rw [column_eq h hr hc]
        simp only [Except.bind, cubicEnds, ← checkMatrices_eq h hr0 hc0 times 3 (by decide) r c, hk, bind, hends])
    simp only [bind, Except.bind, hy, yr, yc] at hx ⊢
    exact hx

theorem lagrange_lifts (solve : Solver R) {ys : List (Mat R)} (h : ∀ y ∈ ys, Shape rows cols y) (times : List R) :
    Lifts rows cols (MP.lagrange solve times ys) fun r c => (column ys r c).bind (lagrange solve times) := by
  have hlen : ∀ r c, (entriesAt ys r c).length = ys.length := fun r c => by simp [entriesAt]
  unfold MP.lagrange
  by_cases hn : times.length > 1
  · by_cases hl : ys.length = times.length
    · rw [if_neg (by simpa using hn), if_neg (by simpa using hl)]
      obtain ⟨y, hy, yr, yc⟩ := nth_zero h (by omega)
      have hall : (ys.all fun z => z.rows == y.rows && z.cols == y.cols) = true := by
        rw [List.all_eq_true]
        intro z hz
        have := h z hz
        simp [this.1, this.2.1, yr, yc]
      simp only [bind, Except.bind, hy, hall, and_true]
      by_cases hf : timesFurther times = true
      · rw [if_neg (by simpa using hf)]
        obtain ⟨m, hm, hms, hat⟩ := generated (rows := rows) (cols := cols)
          (f := fun r c => (do
            let column ← ys.mapM fun y => y.get r c
            return ofCoefficients tVar ((List.range times.length).map (solve times.length (vandermondeRows times column))) :
              Except Err (Polynomial R)))
          (g := fun r c => ofCoefficients tVar
            ((List.range times.length).map (solve times.length (vandermondeRows times (entriesAt ys r c)))))
          fun r c hr hc => by
            have := column_eq h hr hc
            unfold column at this
            simp only [this, bind, Except.bind]; rfl
        simp only [bind, Except.bind] at hm
        rw [yr, yc, hm]
        dsimp only
        have hent : ∀ r c, r < rows → c < cols → (column ys r c).bind (lagrange solve times) =
            Piecewise.make [m.at r c] [times.getD 0 0, times.getD (times.length - 1) 0] := by
          intro r c hr hc
          rw [column_eq h hr hc]
          simp only [Except.bind, lagrange]
          rw [if_neg (by simpa using hn), if_neg (by rw [hlen]; simpa using hl), if_neg (by simpa using hf), hat r c hr hc]
        cases hb : breaksApart [times.getD 0 0, times.getD (times.length - 1) 0] with
        | true =>
          have hs : ∀ n ∈ [m], Shape rows cols n := by
            intro n hn; rw [List.mem_singleton.1 hn]; exact hms
          rw [matrixMake_total hs hb]
          have hq : Shaped rows cols (⟨[times.getD 0 0, times.getD (times.length - 1) 0], [m]⟩ : MP R) := hs
          refine ⟨hq, fun r c hr hc => ?_⟩
          refine (hent r c hr hc).trans ?_
          rw [entry_eq hq hr hc, Piecewise.make, if_pos hb]
          rfl
        | false =>
          rw [MP.make, if_pos (by rw [hb]; decide)]
          intro r c hr hc
          refine (hent r c hr hc).trans ?_
          rw [Piecewise.make, if_neg (by rw [hb]; decide)]
      · rw [if_pos (by simpa using hf)]
        intro r c hr hc
        dsimp only
        rw [column_eq h hr hc]
        simp only [lagrange]
        rw [if_neg (by simpa using hn), if_neg (by rw [hlen]; simpa using hl), if_pos (by simpa using hf)]
    · rw [if_neg (by simpa using hn), if_pos (by simpa using hl)]
      intro r c hr hc
      dsimp only
      rw [column_eq h hr hc]
      simp only [Except.bind, lagrange]
      rw [if_neg (by simpa using hn), if_pos (by rw [hlen]; simpa using hl)]
  · rw [if_pos (by simpa using hn)]
    intro r c hr hc
    dsimp only
    rw [column_eq h hr hc]
    simp only [Except.bind, lagrange]
    rw [if_pos (by simpa using hn)]

theorem colsToVector_ok {m : Mat R} (h : Shape rows cols m) :
    ∃ ys, colsToVector m = .ok ys ∧ ys.length = cols ∧ (∀ y ∈ ys, Shape rows 1 y) ∧
      ∀ r, r < rows → entriesAt ys r 0 = (List.range cols).map fun i => m.at r i := by
  unfold colsToVector
  rw [h.1, h.2.1]
  have : ∀ l : List Nat, (∀ i ∈ l, i < cols) →
      ∃ ys, (l.mapM fun i => generate rows 1 fun r _ => m.get r i) = .ok ys ∧ ys.length = l.length ∧ (∀ y ∈ ys, Shape rows 1 y) ∧
        ∀ r, r < rows → entriesAt ys r 0 = l.map fun i => m.at r i := by
    intro l
    induction l with
    | nil => exact fun _ => ⟨[], rfl, rfl, by simp, fun _ _ => rfl⟩
    | cons i l ih =>
      intro hl
      obtain ⟨ys, e, hlen, hs, he⟩ := ih fun j hj => hl j (by simp [hj])
      obtain ⟨y, hy, hys, hat⟩ := generated (rows := rows) (cols := 1) (f := fun r _ => m.get r i) (g := fun r _ => m.at r i)
        fun r _ hr _ => Mat.get_eq h hr (hl i (by simp))
      refine ⟨y :: ys, mapM_cons_ok.2 ⟨y, ys, hy, e, rfl⟩, by simp [hlen], ?_, fun r hr => ?_⟩
      · intro n hn
        rcases List.mem_cons.1 hn with rfl | hn
        · exact hys
        · exact hs n hn
      · have := he r hr
        simp only [entriesAt, List.map_cons] at this ⊢
        rw [this, hat r 0 hr (by decide)]
  obtain ⟨ys, e, hlen, hs, he⟩ := this (List.range cols) fun i hi => List.mem_range.1 hi
  exact ⟨ys, e, by simpa using hlen, hs, he⟩

/-- The samples of a row of a matrix. -/
theorem colsToVector_row {m : Mat R} (h : Shape rows cols m) :
    ∃ ys, colsToVector m = .ok ys ∧ ys.length = cols ∧ (∀ y ∈ ys, Shape rows 1 y) ∧
      ∀ r, r < rows → column ys r 0 = (List.range cols).mapM fun i => m.get r i := by
  obtain ⟨ys, e, hl, hs, he⟩ := colsToVector_ok h
  refine ⟨ys, e, hl, hs, fun r hr => ?_⟩
  rw [column_eq hs hr (by decide), he r hr]
  exact (mapM_eq_map fun i hi => Mat.get_eq h hr (List.mem_range.1 hi)).symm

end Maliput.Piecewise
