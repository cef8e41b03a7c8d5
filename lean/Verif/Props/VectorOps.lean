import Mathlib.LinearAlgebra.Matrix.NonsingularInverse
import Mathlib.Tactic.FinCases
import Mathlib.Tactic.NormNum
import Verif.Lemmas.VectorLength

set_option autoImplicit false

/-! Property C133: making, reading and writing vectors and matrices, their loops, lengths and texts. -/
namespace Maliput.Props

open Maliput.Mat

section Field

variable {K : Type} [Field K]

omit [Field K] in
/-- C133: an index is accepted exactly if it is below the size; what was assigned is read, and nothing else changes. -/
theorem vector_index {α : Type} {n : Nat} (v : Fin n → α) (index : Nat) (x : α) :
    (n ≤ index → getAt v index = .error .throws ∧ setAt v index x = .error .throws) ∧
    (index < n → (∃ y, getAt v index = .ok y) ∧ ∃ w, setAt v index x = .ok w ∧ getAt w index = .ok x ∧
      ∀ j, j ≠ index → getAt w j = getAt v j) ∧
    ∀ i : Fin n, getAt v i.val = .ok (v i) := by
  refine ⟨fun h => ?_, fun h => ⟨⟨_, getAt_fin v ⟨index, h⟩⟩, _, setAt_fin v ⟨index, h⟩ x, ?_, fun j hj => ?_⟩, getAt_fin v⟩
  · rw [getAt, setAt, dif_neg (by omega), dif_neg (by omega)]
    exact ⟨rfl, rfl⟩
  · rw [getAt_fin _ ⟨index, h⟩, Function.update_self]
  · unfold getAt
    by_cases hn : j < n
    · rw [dif_pos hn, dif_pos hn, Function.update_of_ne (fun e => hj (congrArg Fin.val e))]
    · rw [dif_neg hn, dif_neg hn]

example : getAt (![5, 7] : Fin 2 → ℚ) 1 = .ok 7 ∧ getAt (![5, 7] : Fin 2 → ℚ) 2 = .error .throws := by
  constructor <;> rfl

/-- C133: a vector is made from a list exactly if the list has as many numbers as the vector, and has them in order. -/
theorem vector_make (n : Nat) (values : List K) :
    (∀ v, Vec.ofValues n values = .ok v ↔ values.length = n ∧ values = List.ofFn v) ∧
    (values.length ≠ n → Vec.ofValues n values = .error .throws) := by
  have key : values.length = n → Vec.ofValues n values = .ok fun i : Fin n => values.getD i.val 0 := fun h => by
    rw [Vec.ofValues, throwUnless_true h]
    rfl
  have bad : values.length ≠ n → Vec.ofValues n values = .error .throws := fun h => by
    rw [Vec.ofValues, throwUnless_false h]
    rfl
  refine ⟨fun v => ⟨fun h => ?_, fun ⟨hl, h⟩ => ?_⟩, bad⟩
  · have hl : values.length = n := by
      by_contra hne
      rw [bad hne] at h
      cases h
    refine ⟨hl, ?_⟩
    rw [key hl] at h
    cases h
    refine List.ext_getElem (by simp [hl]) fun i h1 h2 => ?_
    rw [List.getElem_ofFn]
    rw [List.getD_eq_getElem?_getD, List.getElem?_eq_getElem h1, Option.getD_some]
  · rw [key hl]
    refine congrArg Except.ok (funext fun i => ?_)
    rw [h, List.getD_eq_getElem?_getD, List.getElem?_ofFn, dif_pos i.isLt, Option.getD_some]

example : Vec.ofValues 3 ([1, 2, 3] : List ℚ) = .ok ![1, 2, 3] :=
  ((vector_make 3 [1, 2, 3]).1 _).2 ⟨rfl, rfl⟩

/-- C133: sums, differences, multiples, quotients and comparisons of vectors, and of matrices, are those of their
elements; all elements of `Ones` are one and of `Zero` zero. -/
theorem vector_elements [DecidableEq K] {n : Nat} (a b : Vec K n) (m p : Mat.Matrix K n) (k : K) :
    (∀ i, Vec.add a b i = a i + b i ∧ Vec.sub a b i = a i - b i ∧ Vec.mul a k i = k * a i ∧ Vec.div a k i = a i / k ∧
      (Vec.ones n : Vec K n) i = 1 ∧ (Vec.zero n : Vec K n) i = 0) ∧
    (Vec.beq a b = true ↔ a = b) ∧ (∀ i j, Mat.div m k i j = m i j / k) ∧ (Mat.beq m p = true ↔ m = p) := by
  have hb : ∀ a b : Vec K n, Vec.beq a b = true ↔ a = b := fun a b => by
    simp only [Vec.beq, List.all_eq_true, List.mem_finRange, forall_const, decide_eq_true_eq]
    exact ⟨funext, fun h i => h ▸ rfl⟩
  refine ⟨fun i => ⟨rfl, rfl, mul_comm _ _, rfl, rfl, rfl⟩, hb a b, fun _ _ => rfl, ?_⟩
  simp only [Mat.beq, List.all_eq_true, List.mem_finRange, forall_const, hb]
  exact ⟨funext, fun h i => h ▸ rfl⟩

/-- C133: `reduce` of a vector throws exactly for an index that is not below the size; otherwise it never writes behind
the end of the result, which has all other elements in the same order. -/
theorem vector_reduce {n : Nat} (v : Vec K (n + 2)) (index : Nat) :
    (n + 2 ≤ index → reduceVecLoop v index = .error .throws) ∧
    (index < n + 2 → ∃ w, reduceVecLoop v index = .ok w ∧ List.ofFn w = (List.ofFn v).eraseIdx index) := by
  refine ⟨fun h => ?_, fun h => ⟨_, reduceVecLoop_ok v index h, ?_⟩⟩
  · rw [reduceVecLoop, throwUnless_true (by omega), throwUnless_false (by omega)]
    rfl
  · refine List.ext_getElem (by simp [List.length_eraseIdx, h]) fun i h1 h2 => ?_
    rw [List.getElem_ofFn, List.getElem_eraseIdx]
    simp only [reduceVec]
    split <;> rw [List.getElem_ofFn] <;> rfl

example : ∃ w, reduceVecLoop (![4, 5, 6] : Vec ℚ 3) 1 = .ok w ∧ List.ofFn w = [4, 6] :=
  (vector_reduce ![4, 5, 6] 1).2 (by decide)

/-- C133: the cross product is perpendicular to both factors, changes its sign when they are swapped, and its square and
that of the dot product make the product of the squares. -/
theorem vector_cross (a b : Vec K 3) :
    dot a (Vec.cross a b) = 0 ∧ dot b (Vec.cross a b) = 0 ∧ (∀ i, Vec.cross b a i = -Vec.cross a b i) ∧
    dot (Vec.cross a b) (Vec.cross a b) + dot a b * dot a b = dot a a * dot b b := by
  refine ⟨?_, ?_, fun i => ?_, ?_⟩
  · simp only [dot_eq, Fin.sum_univ_three, Vec.cross, Matrix.cons_val]
    ring
  · simp only [dot_eq, Fin.sum_univ_three, Vec.cross, Matrix.cons_val]
    ring
  · fin_cases i <;> simp [Vec.cross] <;> ring
  · simp only [dot_eq, Fin.sum_univ_three, Vec.cross, Matrix.cons_val]
    ring

/-- C133: the cross product of the first two unit vectors is the third one. -/
theorem vector_cross_units : Vec.cross (![1, 0, 0] : Vec K 3) ![0, 1, 0] = ![0, 0, 1] := by
  funext i
  fin_cases i <;> simp [Vec.cross]

/-- C133: a matrix is made from a list of numbers exactly if there are as many as entries, row after row, and from a
list of rows exactly if there are as many as rows; otherwise the constructors throw. -/
theorem matrix_make {n : Nat} (values : List K) (rows : List (Vec K (n + 1))) :
    (values.length ≠ (n + 1) * (n + 1) → ofValues (n + 1) values = .error .throws) ∧
    (values.length = (n + 1) * (n + 1) → ∃ m, ofValues (n + 1) values = .ok m ∧
      ∀ i j : Fin (n + 1), values[i.val * (n + 1) + j.val]? = some (m i j)) ∧
    (rows.length ≠ n + 1 → ofRows (n + 1) rows = .error .throws) ∧
    (rows.length = n + 1 → ∃ m, ofRows (n + 1) rows = .ok m ∧ rows = List.ofFn m) := by
  refine ⟨fun h => ?_, fun h => ⟨_, ofValues_ok values (by omega) h, fun i j => ?_⟩, fun h => ?_,
    fun h => ⟨_, ofRows_ok rows h, ?_⟩⟩
  · rw [ofValues, throwUnless_true (by omega), throwUnless_false h]
    rfl
  · have : i.val * (n + 1) + j.val < values.length := by
      rw [h]
      calc i.val * (n + 1) + j.val < i.val * (n + 1) + (n + 1) := by have := j.isLt; omega
        _ = (i.val + 1) * (n + 1) := by ring
        _ ≤ (n + 1) * (n + 1) := Nat.mul_le_mul_right _ i.isLt
    rw [List.getD_eq_getElem?_getD, List.getElem?_eq_getElem this, Option.getD_some]
  · rw [ofRows, throwUnless_false h]
    rfl
  · exact List.ext_getElem (by simp [h]) fun i h1 h2 => by rw [List.getElem_ofFn]

example : ∃ m, ofValues 2 ([1, 2, 3, 4] : List ℚ) = .ok m ∧
    ∀ i j : Fin 2, ([1, 2, 3, 4] : List ℚ)[i.val * 2 + j.val]? = some (m i j) :=
  (matrix_make (n := 1) [1, 2, 3, 4] []).2.1 rfl

/-- C133: the loops for the identity, columns, transposes, products, submatrices, determinants, cofactors and adjoints
of matrices of any size never throw and never write behind the end of an array, and give these. -/
theorem matrix_loops {n : Nat} (a b : Mat.Matrix K (n + 2)) :
    (∃ m, identityLoop K (n + 2) = .ok m ∧ _root_.Matrix.of m = 1) ∧
    (∀ j : Fin (n + 2), colLoop a j.val = .ok fun i => a i j) ∧
    (∃ m, transposeLoop a = .ok m ∧ _root_.Matrix.of m = (_root_.Matrix.of a).transpose) ∧
    (∃ m, mulLoop a b = .ok m ∧ _root_.Matrix.of m = _root_.Matrix.of a * _root_.Matrix.of b) ∧
    (∀ i j : Fin (n + 2), reduceLoop a i.val j.val = .ok fun r c => a (i.succAbove r) (j.succAbove c)) ∧
    determinantLoop a = .ok (_root_.Matrix.of a).det ∧
    (∀ i j : Fin (n + 2), cofactorLoop a i.val j.val =
      .ok ((-1) ^ (i.val + j.val) * ((_root_.Matrix.of a).submatrix i.succAbove j.succAbove).det)) ∧
    ∃ m, adjointLoop a = .ok m ∧ _root_.Matrix.of m = (_root_.Matrix.of a).adjugate := by
  refine ⟨⟨_, identityLoop_ok (n + 2), ?_⟩, fun j => colLoop_ok a j.val j.isLt, ⟨_, transposeLoop_ok a, rfl⟩,
    ⟨_, mulLoop_ok a b, mul_eq a b⟩, fun i j => ?_, ?_, fun i j => ?_, ⟨_, adjointLoop_ok a, adjoint_eq a⟩⟩
  · ext i j
    simp [_root_.Matrix.one_apply]
  · rw [reduceLoop_ok a i.val j.val i.isLt j.isLt]
    refine congrArg Except.ok ?_
    have := reduce_eq a i j
    funext r c
    exact congrFun (congrFun this r) c
  · rw [determinantLoop_ok, determinant_eq]
  · rw [cofactorLoop_ok, cofactorAt, sign_eq, determinant_eq, reduce_eq]

/-- C133: the queries of matrices for rows and columns throw for indices that are not below the size. -/
theorem matrix_index {n : Nat} (a : Mat.Matrix K (n + 2)) (i j : Nat) :
    (n + 2 ≤ j → colLoop a j = .error .throws) ∧
    (n + 2 ≤ i ∨ n + 2 ≤ j → reduceLoop a i j = .error .throws ∧ cofactorLoop a i j = .error .throws) := by
  refine ⟨fun h => ?_, fun h => ?_⟩
  · rw [colLoop, throwUnless_false (by omega)]
    rfl
  · by_cases hi : i < n + 2
    · have hj : ¬ j < n + 2 := by omega
      rw [reduceLoop, cofactorLoop, throwUnless_true hi, throwUnless_false hj]
      exact ⟨rfl, rfl⟩
    · rw [reduceLoop, cofactorLoop, throwUnless_false hi]
      exact ⟨rfl, rfl⟩

example : cofactorLoop (![![1, 2], ![3, 4]] : Mat.Matrix ℚ 2) 2 0 = .error .throws :=
  ((matrix_index _ 2 0).2 (Or.inl le_rfl)).2

omit [Field K] in
/-- C133: the texts of two matrices of the same size are the same only if the texts of all their numbers are, provided
that the texts of numbers have no space and no line break. -/
theorem matrix_text {n : Nat} {print : K → List Char} (h : ∀ x, ' ' ∉ print x ∧ '\n' ∉ print x) (a b : Mat.Matrix K n) :
    Mat.toStr print a = Mat.toStr print b ↔ ∀ i j, print (a i j) = print (b i j) := by
  refine ⟨fun e i j => ?_, fun e => ?_⟩
  · have rowText : ∀ (v : Vec K n), '\n' ∉ VectorText.toStr print (List.ofFn v) := fun v m => by
      simp only [VectorText.toStr, List.cons_append, List.mem_cons, List.mem_append, List.not_mem_nil, or_false] at m
      rcases m with m | m | m
      · exact absurd m (by decide)
      · refine not_mem_intercalate (by decide) (fun x hx => ?_) m
        obtain ⟨y, _, rfl⟩ := List.mem_map.1 hx
        exact (h y).2
      · exact absurd m (by decide)
    have h1 : List.intercalate [',', '\n'] (List.ofFn fun i => VectorText.toStr print (List.ofFn (a i))) =
        List.intercalate [',', '\n'] (List.ofFn fun i => VectorText.toStr print (List.ofFn (b i))) := by
      simpa [Mat.toStr] using e
    have h2 := intercalate_inj (p := [',']) (c := '\n') (by decide) (by simp)
      (fun x hx => by obtain ⟨y, rfl⟩ := List.mem_ofFn.1 hx; exact rowText _)
      (fun x hx => by obtain ⟨y, rfl⟩ := List.mem_ofFn.1 hx; exact rowText _) h1
    have h3 : VectorText.toStr print (List.ofFn (a i)) = VectorText.toStr print (List.ofFn (b i)) :=
      congrFun (List.ofFn_injective h2) i
    have h4 : List.intercalate [',', ' '] ((List.ofFn (a i)).map print) =
        List.intercalate [',', ' '] ((List.ofFn (b i)).map print) := by
      simpa [VectorText.toStr] using h3
    have h5 := intercalate_inj (p := [',']) (c := ' ') (by decide) (by simp)
      (fun x hx => by obtain ⟨y, _, rfl⟩ := List.mem_map.1 hx; exact (h y).1)
      (fun x hx => by obtain ⟨y, _, rfl⟩ := List.mem_map.1 hx; exact (h y).1) h4
    rw [List.map_ofFn, List.map_ofFn] at h5
    exact congrFun (List.ofFn_injective h5) j
  · have : ∀ i, VectorText.toStr print (List.ofFn (a i)) = VectorText.toStr print (List.ofFn (b i)) := fun i => by
      simp only [VectorText.toStr, List.map_ofFn]
      rw [show print ∘ a i = print ∘ b i from funext fun j => e i j]
    simp only [Mat.toStr, this]

end Field

/-- C133: `norm` is the Euclidean length: the root of the sum of the squares, zero only for the zero vector, with the
triangle inequality and that of Cauchy and Schwarz. -/
theorem vector_norm {n : Nat} (a b : Vec ℝ n) (k : ℝ) :
    Vec.norm a = Real.sqrt (∑ i, a i ^ 2) ∧ 0 ≤ Vec.norm a ∧ (Vec.norm a = 0 ↔ a = Vec.zero n) ∧
    Vec.norm (Vec.add a b) ≤ Vec.norm a + Vec.norm b ∧ Vec.norm (Vec.mul a k) = |k| * Vec.norm a ∧
    |dot a b| ≤ Vec.norm a * Vec.norm b := by
  refine ⟨?_, Real.sqrt_nonneg _, ?_, ?_, ?_, ?_⟩
  · rw [Vec.norm, dot_eq]
    simp only [sq]
  · rw [norm_eq, norm_eq_zero]
    exact ⟨fun h => funext fun i => congrFun (congrArg WithLp.ofLp h) i, fun h => by rw [h]; rfl⟩
  · rw [norm_eq, norm_eq, norm_eq]
    exact norm_add_le (WithLp.toLp 2 a : EuclideanSpace ℝ (Fin n)) (WithLp.toLp 2 b)
  · rw [norm_eq, norm_eq, ← Real.norm_eq_abs, ← norm_smul]
    refine congrArg _ (congrArg (WithLp.toLp 2) (funext fun i => ?_))
    exact mul_comm _ _
  · rw [dot_inner, norm_eq, norm_eq]
    exact abs_real_inner_le_norm _ _

/-- C133: normalizing a vector that is not zero, in either way, gives the vector of length one that has the direction of
the vector. -/
theorem vector_normalized {n : Nat} (a : Vec ℝ n) (h : a ≠ Vec.zero n) :
    Vec.normalize a = Vec.normalized a ∧ Vec.norm (Vec.normalized a) = 1 ∧
    ∀ u : Vec ℝ n, (Vec.norm u = 1 ∧ ∃ k, 0 < k ∧ a = Vec.mul u k) ↔ u = Vec.normalized a := by
  have hpos : 0 < Vec.norm a := lt_of_le_of_ne (vector_norm a a 0).2.1 fun e => h ((vector_norm a a 0).2.2.1.1 e.symm)
  have he : Vec.normalized a = Vec.mul a (1 / Vec.norm a) := funext fun i => by
    simp only [Vec.normalized, Vec.div, Vec.mul]
    ring
  have h1 : Vec.norm (Vec.normalized a) = 1 := by
    rw [he, (vector_norm a a _).2.2.2.2.1, abs_of_pos (by positivity)]
    field_simp
  refine ⟨rfl, h1, fun u => ⟨fun ⟨hu, k, hk, ha⟩ => ?_, fun hu => ?_⟩⟩
  · have hn : Vec.norm a = k := by rw [ha, (vector_norm u u k).2.2.2.2.1, hu, abs_of_pos hk, mul_one]
    funext i
    simp only [Vec.normalized, Vec.div, hn]
    rw [ha]
    simp only [Vec.mul]
    field_simp
  · subst hu
    refine ⟨h1, Vec.norm a, hpos, funext fun i => ?_⟩
    simp only [Vec.normalized, Vec.div, Vec.mul]
    field_simp

example : (![3, 4] : Vec ℝ 2) ≠ Vec.zero 2 := fun h => by
  have := congrFun h 0
  simp [Vec.zero] at this

end Maliput.Props
