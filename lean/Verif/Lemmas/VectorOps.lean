import Mathlib.Data.List.FinRange
import Verif.Lemmas.Matrix
import Verif.Lemmas.Monad
import Verif.Model.VectorOps

set_option autoImplicit false

/-! The loops of vectors and matrices leave what the model of matrices without loops says. -/
namespace Maliput.Mat

theorem foldlM_states {σ α : Type} (step : σ → α → Except Err σ) : ∀ (l : List α) (S : Nat → σ),
    (∀ i (h : i < l.length), step (S i) l[i] = .ok (S (i + 1))) → l.foldlM step (S 0) = .ok (S l.length)
  | [], _, _ => rfl
  | x :: t, S, h => by
    rw [List.foldlM_cons, show step (S 0) x = .ok (S 1) from h 0 (by simp)]
    exact foldlM_states step t (fun i => S (i + 1)) fun i hi => h (i + 1) (by simpa using hi)

theorem foldlM_range {σ : Type} (step : σ → Nat → Except Err σ) (n : Nat) (S : Nat → σ)
    (h : ∀ i, i < n → step (S i) i = .ok (S (i + 1))) : (List.range n).foldlM step (S 0) = .ok (S n) := by
  have := foldlM_states step (List.range n) S (fun i hi => by
    rw [List.getElem_range]
    exact h i (by simpa using hi))
  simpa using this

theorem foldlM_ofFn {σ α : Type} {n : Nat} (step : σ → α → Except Err σ) (v : Fin n → α) (S : Nat → σ)
    (h : ∀ i : Fin n, step (S i) (v i) = .ok (S (i + 1))) : (List.ofFn v).foldlM step (S 0) = .ok (S n) := by
  have := foldlM_states step (List.ofFn v) S (fun i hi => by
    rw [List.getElem_ofFn]
    exact h ⟨i, by simpa using hi⟩)
  simpa using this

theorem throwUnless_true {p : Prop} [Decidable p] (h : p) : throwUnless (decide p) = .ok () := by
  rw [decide_eq_true h]; rfl

theorem throwUnless_false {p : Prop} [Decidable p] (h : ¬ p) : throwUnless (decide p) = .error .throws := by
  rw [decide_eq_false h]; rfl

theorem getAt_fin {α : Type} {n : Nat} (v : Fin n → α) (i : Fin n) : getAt v i.val = .ok (v i) := by
  rw [getAt, dif_pos i.isLt]

theorem setAt_fin {α : Type} {n : Nat} (v : Fin n → α) (i : Fin n) (x : α) :
    setAt v i.val x = .ok (Function.update v i x) := by
  rw [setAt, dif_pos i.isLt]

theorem store_fin {α : Type} {n : Nat} (v : Fin n → α) (i : Fin n) (x : α) :
    store v i.val x = .ok (Function.update v i x) := by
  rw [store, dif_pos i.isLt]

/-- An array filled up to an index. -/
def filled {α : Type} {n : Nat} (f g : Fin n → α) (k : Nat) : Fin n → α := fun i => if i.val < k then f i else g i

theorem filled_zero {α : Type} {n : Nat} (f g : Fin n → α) : filled f g 0 = g := by
  funext i; simp [filled]

theorem filled_all {α : Type} {n : Nat} (f g : Fin n → α) : filled f g n = f := by
  funext i; simp [filled]

theorem filled_succ {α : Type} {n : Nat} (f g : Fin n → α) (i : Fin n) :
    Function.update (filled f g i.val) i (f i) = filled f g (i.val + 1) := by
  funext j
  by_cases h : j = i
  · subst h; simp [filled]
  · rw [Function.update_of_ne h]
    have : j.val ≠ i.val := fun e => h (Fin.ext e)
    unfold filled
    by_cases h' : j.val < i.val
    · rw [if_pos h', if_pos (by omega)]
    · rw [if_neg h', if_neg (by omega)]

theorem fill_range {α : Type} {n : Nat} (g f : Fin n → α) (step : (Fin n → α) → Nat → Except Err (Fin n → α))
    (h : ∀ (v : Fin n → α) (i : Fin n), step v i.val = .ok (Function.update v i (f i))) :
    (List.range n).foldlM step g = .ok f := by
  have := foldlM_range step n (filled f g) fun i hi => by
    rw [h _ ⟨i, hi⟩]
    exact congrArg _ (filled_succ f g ⟨i, hi⟩)
  rwa [filled_zero, filled_all] at this

theorem countLoop_spec {α β : Type} {n : Nat} (assign : (Fin n → β) → Nat → β → Except Err (Fin n → β))
    (ha : ∀ v (i : Fin n) x, assign v i.val x = .ok (Function.update v i x)) (f : α → Except Err β) (l : List α)
    (hl : l.length = n) (g r : Fin n → β) (hf : ∀ i : Fin n, f (l[i.val]'(hl ▸ i.isLt)) = .ok (r i)) :
    countLoop assign f l (0, g) = .ok (n, r) := by
  have := foldlM_states (fun (s : Nat × (Fin n → β)) x => do
    let out ← assign s.2 s.1 (← f x)
    return (s.1 + 1, out)) l (fun k => (k, filled r g k)) fun i hi => by
      have h1 := hf ⟨i, hl ▸ hi⟩
      have h2 := ha (filled r g i) ⟨i, hl ▸ hi⟩ (r ⟨i, hl ▸ hi⟩)
      dsimp only at h1 h2 ⊢
      rw [h1]
      change (do let out ← assign (filled r g i) i (r ⟨i, hl ▸ hi⟩); return (i + 1, out)) = _
      rw [h2]
      exact congrArg (fun z => Except.ok (i + 1, z)) (filled_succ r g ⟨i, hl ▸ hi⟩)
  rw [filled_zero, hl, filled_all] at this
  exact this

/-- The states of the loops that leave out one element. -/
def reduced {β : Type} {n : Nat} (w : Fin (n + 1) → β) (g : Fin n → β) (index k : Nat) : Bool × Nat × (Fin n → β) :=
  (decide (k ≤ index), if k ≤ index then k else k - 1,
    fun i => if i.val < index then (if i.val < k then w i.castSucc else g i)
      else if i.val + 1 < k then w i.succ else g i)

theorem reduceStep_spec {α β : Type} {n : Nat} (v : Fin (n + 1) → α) (w : Fin (n + 1) → β) (f : α → Except Err β)
    (hf : ∀ i, f (v i) = .ok (w i)) (g : Fin n → β) (index : Nat) (h : index < n + 1) :
    (List.ofFn v).foldlM (reduceStep index f) (true, 0, g) = .ok (false, n, reduceVec w ⟨index, h⟩) := by
  have key := foldlM_ofFn (reduceStep index f) v (reduced w g index) fun i => by
    rcases lt_trichotomy i.val index with hi | hi | hi
    · have hn : i.val < n := by omega
      have hs := store_fin (reduced w g index i.val).2.2 ⟨i.val, hn⟩ (w i)
      simp only [reduceStep, reduced] at hs ⊢
      have c1 : ¬ i.val = index := by omega
      have c2 : i.val ≤ index := by omega
      have c3 : i.val + 1 ≤ index := by omega
      simp only [c2, if_true, c1, decide_false, Bool.and_false, Bool.false_eq_true, if_false, hf]
      change (do let out ← store _ i.val (w i); return (decide True, i.val + 1, out)) = _
      rw [hs]
      change Except.ok (decide True, i.val + 1, _) = _
      simp only [c3, if_true]
      refine congrArg (fun z => Except.ok (decide True, i.val + 1, z)) ?_
      funext j
      by_cases hj : j = ⟨i.val, hn⟩
      · subst hj
        rw [Function.update_self]
        simp only [hi, if_true, Nat.lt_succ_self]
        rfl
      · have hj' : j.val ≠ i.val := fun e => hj (Fin.ext e)
        rw [Function.update_of_ne hj]
        by_cases h1 : j.val < index
        · simp only [h1, if_true]
          by_cases h2 : j.val < i.val
          · rw [if_pos h2, if_pos (by omega)]
          · rw [if_neg h2, if_neg (by omega)]
        · simp only [h1, if_false]
          rw [if_neg (by omega), if_neg (by omega)]
    · subst hi
      have c3 : ¬ i.val + 1 ≤ i.val := by omega
      simp only [reduceStep, reduced, le_refl, if_true, decide_true, Bool.and_self, c3, decide_false, if_false,
        Nat.add_sub_cancel]
      refine congrArg (fun z => Except.ok (false, i.val, z)) ?_
      funext j
      by_cases h1 : j.val < i.val
      · rw [if_pos h1, if_pos h1, if_pos h1, if_pos (by omega)]
      · rw [if_neg h1, if_neg h1, if_neg (by omega), if_neg (by omega)]
    · have hn : i.val - 1 < n := by omega
      have hs := store_fin (reduced w g index i.val).2.2 ⟨i.val - 1, hn⟩ (w i)
      simp only [reduceStep, reduced] at hs ⊢
      have c2 : ¬ i.val ≤ index := by omega
      have c3 : ¬ i.val + 1 ≤ index := by omega
      simp only [c2, if_false, decide_false, Bool.false_and, Bool.false_eq_true, hf]
      change (do let out ← store _ (i.val - 1) (w i); return (decide False, i.val - 1 + 1, out)) = _
      rw [hs]
      change Except.ok (decide False, i.val - 1 + 1, _) = _
      simp only [c3, if_false]
      rw [show i.val - 1 + 1 = i.val + 1 - 1 by omega]
      refine congrArg (fun z => Except.ok (decide False, i.val + 1 - 1, z)) ?_
      funext j
      by_cases hj : j = ⟨i.val - 1, hn⟩
      · subst hj
        rw [Function.update_self]
        have e1 : ¬ i.val - 1 < index := by omega
        have e2 : i.val - 1 + 1 < i.val + 1 := by omega
        simp only [e1, if_false, e2, if_true]
        congr 1
        apply Fin.ext
        simp only [Fin.val_succ]
        omega
      · have hj' : j.val ≠ i.val - 1 := fun e => hj (Fin.ext e)
        rw [Function.update_of_ne hj]
        by_cases h1 : j.val < index
        · simp only [h1, if_true]
          rw [if_pos (by omega), if_pos (by omega)]
        · simp only [h1, if_false]
          by_cases h2 : j.val + 1 < i.val
          · rw [if_pos h2, if_pos (by omega)]
          · rw [if_neg h2, if_neg (by omega)]
  have e0 : reduced w g index 0 = (true, 0, g) := by
    simp only [reduced, Nat.zero_le, decide_true, Nat.not_lt_zero, if_false, ite_self]
  have e1 : reduced w g index (n + 1) = (false, n, reduceVec w ⟨index, h⟩) := by
    have c : ¬ n + 1 ≤ index := by omega
    simp only [reduced, c, decide_false, if_false, Nat.add_sub_cancel]
    refine congrArg (fun z => (false, n, z)) ?_
    funext j
    simp only [reduceVec]
    by_cases h1 : j.val < index
    · rw [if_pos h1, if_pos (by omega), if_pos h1]
    · rw [if_neg h1, if_pos (by omega), if_neg h1]
  rwa [e0, e1] at key

variable {K : Type} [Field K]

theorem reduceVecLoop_ok {n : Nat} (v : Vec K (n + 2)) (index : Nat) (h : index < n + 2) :
    reduceVecLoop v index = .ok (reduceVec v ⟨index, h⟩) := by
  rw [reduceVecLoop, throwUnless_true (by omega), throwUnless_true h]
  change (do let s ← (List.ofFn v).foldlM (reduceStep index pure) (true, 0, fun _ => 0); return s.2.2) = _
  rw [reduceStep_spec v v pure (fun _ => rfl) _ index h]
  rfl

theorem reduceLoop_ok {n : Nat} (m : Matrix K (n + 2)) (row column : Nat) (hr : row < n + 2) (hc : column < n + 2) :
    reduceLoop m row column = .ok (reduce m ⟨row, hr⟩ ⟨column, hc⟩) := by
  rw [reduceLoop, throwUnless_true hr, throwUnless_true hc, throwUnless_true (by omega)]
  change (do
    let s ← (List.ofFn m).foldlM (reduceStep row fun r => reduceVecLoop r column) (true, 0, fun _ => fun _ => 0)
    return s.2.2) = _
  rw [reduceStep_spec m (fun i => reduceVec (m i) ⟨column, hc⟩) _ (fun i => reduceVecLoop_ok (m i) column hc) _ row hr]
  refine congrArg Except.ok ?_
  funext i
  simp only [reduce, reduceVec]
  split <;> rfl

omit [Field K] in
theorem setEntry_fin {n : Nat} (m : Matrix K n) (i j : Fin n) (x : K) :
    setEntry m i.val j.val x = .ok (Function.update m i (Function.update (m i) j x)) := by
  rw [setEntry, getAt_fin]
  change (do let r ← setAt (m i) j.val x; setAt m i.val r) = _
  rw [setAt_fin]
  exact setAt_fin _ _ _

theorem colLoop_ok {n : Nat} (m : Matrix K n) (index : Nat) (h : index < n) :
    colLoop m index = .ok (col m ⟨index, h⟩) := by
  rw [colLoop, throwUnless_true h]
  change (do let s ← countLoop setAt (fun row => getAt row index) (List.ofFn m) (0, fun _ => 0); return s.2) = _
  rw [countLoop_spec setAt setAt_fin _ (List.ofFn m) (by simp) _ (col m ⟨index, h⟩) fun i => by
    rw [List.getElem_ofFn]
    exact getAt_fin (m i) ⟨index, h⟩]
  rfl

theorem transposeLoop_ok {n : Nat} (m : Matrix K n) : transposeLoop m = .ok (transpose m) :=
  fill_range _ _ _ fun v i => by
    rw [colLoop_ok m i.val i.isLt]
    exact store_fin v i _

theorem entriesLoop_ok {n : Nat} (f : Nat → Nat → Except Err K) (m : Matrix K n)
    (h : ∀ i j : Fin n, f i.val j.val = .ok (m i j)) : entriesLoop n f = .ok m :=
  fill_range _ _ _ fun v i => by
    have := foldlM_range (fun (v : Matrix K n) j => do setEntry v i.val j (← f i.val j)) n
      (fun k => Function.update v i (filled (m i) (v i) k)) fun j hj => by
        have h1 := h i ⟨j, hj⟩
        dsimp only at h1 ⊢
        rw [h1]
        refine (setEntry_fin _ i ⟨j, hj⟩ _).trans ?_
        rw [Function.update_self, Function.update_idem, filled_succ (m i) (v i) ⟨j, hj⟩]
    simp only [filled_zero, filled_all, Function.update_eq_self] at this
    exact this

theorem mulLoop_ok {n : Nat} (a b : Matrix K n) : mulLoop a b = .ok (mul a b) :=
  entriesLoop_ok _ _ fun i j => by
    rw [getAt_fin, colLoop_ok b j.val j.isLt]
    rfl

theorem identityLoop_ok (n : Nat) : identityLoop K n = .ok fun i j => if i = j then 1 else 0 := by
  have := foldlM_range (fun (m : Matrix K n) i => setEntry m i i 1) n
    (fun k i j => if i = j ∧ i.val < k then 1 else 0) fun i hi => by
      refine (setEntry_fin _ ⟨i, hi⟩ ⟨i, hi⟩ 1).trans (congrArg Except.ok ?_)
      funext r c
      by_cases hr : r = ⟨i, hi⟩
      · subst hr
        rw [Function.update_self]
        by_cases hc : c = ⟨i, hi⟩
        · subst hc; simp
        · rw [Function.update_of_ne hc, if_neg (fun e => hc e.1.symm), if_neg (fun e => hc e.1.symm)]
      · rw [Function.update_of_ne hr]
        have : r.val ≠ i := fun e => hr (Fin.ext e)
        refine if_congr (and_congr_right fun _ => ?_) rfl rfl
        omega
  simp only [Nat.not_lt_zero, and_false, if_false, Fin.is_lt, and_true] at this
  exact this

theorem ofValues_ok {n : Nat} (values : List K) (hn : 1 ≤ n) (h : values.length = n * n) :
    ofValues n values = .ok fun i j => values.getD (i.val * n + j.val) 0 := by
  rw [ofValues, throwUnless_true hn, throwUnless_true h]
  refine fill_range _ _ _ fun v i => (store_fin v i _).trans ?_
  refine congrArg (fun z => Except.ok (Function.update v i z)) ?_
  funext j
  rw [List.getD_eq_getElem?_getD, List.getElem?_take_of_lt j.isLt, List.getElem?_drop, List.getD_eq_getElem?_getD]

theorem ofRows_ok {n : Nat} (rows : List (Vec K n)) (h : rows.length = n) :
    ofRows n rows = .ok fun i => rows[i.val]'(h.symm ▸ i.isLt) := by
  rw [ofRows, throwUnless_true h]
  change (do let s ← countLoop store pure rows (0, fun _ _ => 0); return s.2) = _
  rw [countLoop_spec store store_fin pure rows h _ (fun i => rows[i.val]'(h.symm ▸ i.isLt)) fun i => rfl]
  rfl

theorem foldlM_sum {α : Type} (g : α → Except Err K) (f : α → K) (h : ∀ a, g a = .ok (f a)) (l : List α) :
    ∀ r, l.foldlM (fun r a => do return r + (← g a)) r = .ok (l.foldl (fun r a => r + f a) r) := by
  induction l with
  | nil => exact fun r => rfl
  | cons a t ih =>
    intro r
    rw [List.foldlM_cons, h]
    exact ih _

theorem cofactorLoop_of {n : Nat} (m : Matrix K (n + 2))
    (ih : ∀ m' : Matrix K (n + 1), determinantLoop m' = .ok (determinant m')) (i j : Fin (n + 2)) :
    cofactorLoop m i.val j.val = .ok (cofactorAt m i j) := by
  rw [cofactorLoop, throwUnless_true i.isLt, throwUnless_true j.isLt, throwUnless_true (by omega)]
  change (do return (if (i.val + j.val) % 2 = 0 then 1 else -1) * (← determinantLoop (← reduceLoop m i.val j.val))) = _
  rw [reduceLoop_ok m i.val j.val i.isLt j.isLt]
  change (do return (if (i.val + j.val) % 2 = 0 then 1 else -1) * (← determinantLoop (reduce m i j))) = _
  rw [ih]
  rfl

theorem determinantLoop_ok : ∀ {n : Nat} (m : Matrix K (n + 1)), determinantLoop m = .ok (determinant m)
  | 0, m => by rw [determinantLoop, determinant]
  | 1, m => by rw [determinantLoop, determinant]
  | n + 2, m => by
    rw [determinantLoop, determinant]
    have h : ∀ j : Fin (n + 3), (do return m 0 j * (← cofactorLoop m 0 j.val) : Except Err K) =
        .ok (m 0 j * (sign 0 j.val * determinant (reduce m 0 j))) := fun j => by
      have := cofactorLoop_of m (fun m' => determinantLoop_ok m') 0 j
      change (do return m 0 j * (← cofactorLoop m (0 : Fin (n + 3)).val j.val) : Except Err K) = _
      rw [this]
      rfl
    refine Eq.trans ?_ (foldlM_sum _ _ h (List.finRange (n + 3)) 0)
    congr 1
    funext r j
    cases cofactorLoop m 0 j.val <;> rfl

theorem cofactorLoop_ok {n : Nat} (m : Matrix K (n + 2)) (i j : Fin (n + 2)) :
    cofactorLoop m i.val j.val = .ok (cofactorAt m i j) := cofactorLoop_of m determinantLoop_ok i j

theorem adjointLoop_ok {n : Nat} (m : Matrix K (n + 2)) : adjointLoop m = .ok (adjoint m) := by
  rw [adjointLoop, cofactorsLoop, entriesLoop_ok _ (cofactor m) fun i j => cofactorLoop_ok m i j]
  exact transposeLoop_ok _

end Maliput.Mat
