import Verif.Lemmas.StateVectorHistory
import Mathlib.Algebra.Field.Rat
import Mathlib.Data.List.Nodup

set_option autoImplicit false

/-!
C137: vectors that share elements, and the parts of a continuous state.
-/
namespace Maliput.Props
open Maliput StateVec StateVec.Spec

variable {K : Type}

section
variable [CommSemiring K]

/-- C137. Whatever calls are made, whichever vectors share elements: nothing undefined happens, all vectors and their elements exist, and no
vector ever changes its size. -/
theorem vector_histories (ops : List (Op K)) : ∃ w', World.run ⟨[], []⟩ ops = .ok w' ∧ (∀ v ∈ w'.vectors, Live w'.heap v) ∧
    ∀ more : List (Op K), ∃ w'', w'.run more = .ok w'' ∧ (∀ v ∈ w''.vectors, Live w''.heap v) ∧ w'.vectors <+: w''.vectors ∧
      ∀ v ∈ w'.vectors, v.size w''.heap = v.size w'.heap := by
  obtain ⟨w', e, l, -, -⟩ := run_safe ops (⟨[], []⟩ : World K) (by simp)
  exact ⟨w', e, l, fun more => run_safe more w' l⟩
end

/-- C137. Making a range of a vector succeeds if the range is in it. -/
theorem subvector_iff (h : Heap K) (u : Option Vec) (first num : Int) (v : Vec) (hu : ∀ u' ∈ u, Live h u') :
    Vec.mkSub h u first num = .ok v ↔
      ∃ u', u = some u' ∧ v = .sub u' first num ∧ 0 ≤ first ∧ 0 ≤ num ∧ first + num ≤ (contents h u').length := by
  cases u with
  | none => simp [Vec.mkSub]
  | some u' =>
    have hl := hu u' rfl
    have hc := size_count hl
    have hn := contents_length hl
    unfold Vec.mkSub
    dsimp only
    by_cases c : first < 0 ∨ num < 0 ∨ first + num > u'.size h
    · rw [if_pos c]
      constructor
      · intro e; cases e
      · rintro ⟨u2, e, -, h1, h2, h3⟩
        cases e
        omega
    · rw [if_neg c]
      constructor
      · intro e
        cases e
        exact ⟨u', rfl, rfl, by omega, by omega, by omega⟩
      · rintro ⟨u2, e, rfl, -⟩
        cases e
        rfl

/-- C137. Its values are those of the range. -/
theorem subvector_contents (h : Heap K) (u : Vec) (first num : Nat) (hu : Live h (.sub u first num)) :
    contents h (.sub u first num) = ((contents h u).drop first).take num := by
  obtain ⟨h1, -, -, h4⟩ := hu
  simp only [Int.toNat_natCast] at h4
  apply List.ext_getElem?
  intro i
  rw [sub_getElem?, List.getElem?_take, List.getElem?_drop, contents_getElem?]
  simp only [Int.toNat_natCast]
  by_cases c : i < num
  · rw [if_pos c, if_pos c, if_pos (by omega)]
    congr 1
    omega
  · rw [if_neg c, if_neg c]

/-- C137. All ways of reading a vector give its values; other indices throw, and so does a destination of another size. -/
theorem reading_vector (h : Heap K) (v : Vec) (hv : Live h v) :
    v.size h = (contents h v).length ∧ v.copyToVector h = .ok (contents h v) ∧
    (∀ (i : Nat) (hi : i < (contents h v).length), v.getAtIndex h i = .ok (contents h v)[i] ∧ v.get h i = .ok (contents h v)[i]) ∧
    (∀ i : Int, i < 0 ∨ (contents h v).length ≤ i → v.getAtIndex h i = .error .outOfRange) ∧
    (∀ xs : List K, v.copyToPreSizedVector h xs =
      if xs.length = (contents h v).length then .ok (contents h v) else .error .outOfRange) := by
  have hc := size_count hv
  have hl := contents_length hv
  refine ⟨by rw [hc, hl], copyToVector_ok hv, fun i hi => ⟨?_, get_nat hv i (by omega)⟩, fun i hi => ?_, fun xs => ?_⟩
  · unfold Vec.getAtIndex
    rw [checked_nat hv i (by omega)]
    exact load_element hv i (by omega)
  · unfold Vec.getAtIndex Vec.checked
    by_cases h0 : i < 0
    · rw [if_pos h0]
      rfl
    · rw [if_neg h0, if_pos (by omega)]
      rfl
  · split
    · exact copyToPreSized_ok hv (by omega)
    · unfold Vec.copyToPreSizedVector
      rw [if_pos (by omega)]

/-- C137. In a release, `operator[]` of a range of a vector does not check its argument: it gives the next elements of the vector. -/
theorem subvector_reads_beyond :
    (Vec.sub (.basic 0) 0 2).get ([[10, 11, 12]] : Heap ℚ) 2 = .ok 12 ∧
    (Vec.sub (.basic 0) 1 2).get ([[10, 11, 12]] : Heap ℚ) (-1) = .ok 10 ∧
    (Vec.sub (.basic 0) 1 2).get ([[10, 11, 12]] : Heap ℚ) 2 = .error .ub := by decide +kernel

/-- C137. Setting an element changes this element only. -/
theorem setting_element (h : Heap K) (v : Vec) (hv : Live h v) (x : K) :
    (∀ i : Nat, i < (contents h v).length → ∃ h', v.setAtIndex h i x = .ok h' ∧ Writes h h' v ((contents h v).set i x) ∧
      ∀ a j : Nat, (a, j) ≠ element h v i → (h'.getD a [])[j]? = (h.getD a [])[j]?) ∧
    (∀ i : Int, i < 0 ∨ (contents h v).length ≤ i → v.setAtIndex h i x = .error .outOfRange) := by
  have hc := size_count hv
  have hl := contents_length hv
  refine ⟨fun i hi => ?_, fun i hi => ?_⟩
  · obtain ⟨h', e, w⟩ := setAtIndex_ok hv i (by omega) x
    refine ⟨h', e, w, fun a j hne => ?_⟩
    have e' : h' = store h (element h v i) x := by
      unfold Vec.setAtIndex at e
      rw [checked_nat hv i (by omega)] at e
      cases e
      rfl
    have := valuesAt_store h (element h v i) x (by simp only [element]; exact (live_range hv).1) a
    simp only [valuesAt] at this
    rw [e', this]
    split
    · rename_i ea
      rw [List.getElem?_set, if_neg]
      intro ej
      apply hne
      rw [ea, ← ej]
    · rfl
  · unfold Vec.setAtIndex Vec.checked
    by_cases h0 : i < 0
    · rw [if_pos h0]
      rfl
    · rw [if_neg h0, if_pos (by omega)]
      rfl

/-- C137. What is written to a vector is not seen in vectors without common elements, and all vectors go on existing. -/
theorem writing_apart (h h' : Heap K) (v u : Vec) (xs : List K) (hw : Writes h h' v xs) :
    (Apart h v u → contents h' u = contents h u) ∧ (Live h' u ↔ Live h u) ∧ u.size h' = u.size h :=
  ⟨writes_apart hw, live_shape hw.1 u, size_shape hw.1 u⟩

/-- C137. Copying a vector to one of the same size; the other sizes throw. If they share elements, those must not be copied forwards. -/
theorem copying_vector (h : Heap K) (v u : Vec) (hv : Live h v) (hu : Live h u) :
    ((contents h u).length ≠ (contents h v).length → v.setFrom h u = .error .outOfRange) ∧
    ((contents h u).length = (contents h v).length → NotBehind h v u →
      ∃ h', v.setFrom h u = .ok h' ∧ Writes h h' v (contents h u)) := by
  have h1 := size_count hv
  have h2 := size_count hu
  rw [contents_length hv, contents_length hu]
  refine ⟨fun hne => ?_, fun he hnb => setFrom_ok hv hu (by omega) hnb⟩
  unfold Vec.setFrom
  dsimp only
  rw [if_pos (by omega)]

/-- C137. That includes vectors without common elements, a vector itself, and whole vectors of values. -/
theorem not_behind (h : Heap K) (v u : Vec) (a : Nat) : (Apart h v u → NotBehind h v u) ∧ NotBehind h v v ∧
    (Live h u → (contents h u).length = (contents h (.basic a)).length → a < h.length → NotBehind h (.basic a) u) :=
  ⟨apart_notBehind, notBehind_self v, fun hu he ha => notBehind_basic hu (by
    rw [contents_length hu, contents_length (v := .basic a) ha] at he; exact he)⟩

/-- C137. What copying does otherwise: a range of a vector that starts `d` elements before the destination is repeated every `d` elements. -/
theorem copying_overlap (h : Heap K) (v u : Vec) (hv : Live h v) (hu : Live h u) (hs : (contents h u).length = (contents h v).length)
    (d : Nat) (hd : 0 < d) (hb : element h v 0 = element h u d) :
    ∃ h' xs, v.setFrom h u = .ok h' ∧ Writes h h' v xs ∧ xs.length = (contents h u).length ∧
      ∀ i < xs.length, xs[i]? = (contents h u)[i % d]? := by
  rw [contents_length hv, contents_length hu] at hs
  have h1 := size_count hv
  have h2 := size_count hu
  simp only [element, Prod.mk.injEq, Nat.add_zero] at hb
  obtain ⟨h', e, w⟩ := setFrom_behind hv hu (by omega) d hd hb.1 hb.2
  refine ⟨h', _, e, w, by simp [contents_length hu], fun i hi => ?_⟩
  have hm : i % d < (contents h u).length := by
    rw [contents_length hu]
    simp only [List.length_ofFn] at hi
    exact lt_of_le_of_lt (Nat.mod_le _ _) hi
  rw [List.getElem?_eq_getElem hi, List.getElem?_eq_getElem hm]
  simp

/-- C137. So copying a vector can fail to copy it. -/
theorem copying_wrong : ∃ h' : Heap ℚ, (Vec.sub (.basic 0) 1 2).setFrom [[1, 2, 3]] (.sub (.basic 0) 0 2) = .ok h' ∧
    (Vec.sub (.basic 0) 1 2).copyToVector h' = .ok [1, 1] ∧
    (Vec.sub (.basic 0) 0 2).copyToVector ([[1, 2, 3]] : Heap ℚ) = .ok [1, 2] := ⟨[[1, 1, 1]], by decide +kernel⟩

/-- C137. Setting a vector from values. -/
theorem setting_vector (h : Heap K) (v : Vec) (hv : Live h v) (xs : List K) :
    (xs.length ≠ (contents h v).length → v.setFromVector h xs = .error .outOfRange) ∧
    (xs.length = (contents h v).length → ∃ h', v.setFromVector h xs = .ok h' ∧ Writes h h' v xs) := by
  have h1 := size_count hv
  rw [contents_length hv]
  refine ⟨fun hne => ?_, fun he => setFromVector_ok hv (by omega)⟩
  unfold Vec.setFromVector
  rw [if_pos (by omega)]

section
variable [CommSemiring K]

/-- C137. Setting a vector to zero. -/
theorem zeroing_vector (h : Heap K) (v : Vec) (hv : Live h v) :
    ∃ h', v.setZero h = .ok h' ∧ Writes h h' v (List.replicate (contents h v).length 0) := setZero_ok hv

/-- C137. Adding multiples of vectors to a vector of values: the sizes must be the same, and only the first operand may be the vector itself. -/
theorem adding_vectors_partial (h : Heap K) (a : Nat) (os : List (K × Vec)) (ha : a < h.length) (hl : ∀ o ∈ os, Live h o.2) :
    ((∃ o ∈ os, (contents h o.2).length ≠ (contents h (.basic a)).length) → Vec.plusEqScaled h (.basic a) os = .error .outOfRange) ∧
    ((∀ o ∈ os, (contents h o.2).length = (contents h (.basic a)).length) → (∀ o ∈ os.tail, Apart h (.basic a) o.2) →
      ∃ h', Vec.plusEqScaled h (.basic a) os = .ok h' ∧ Writes h h' (.basic a) (linear h (.basic a) os)) := by
  have hv : Live h (.basic a) := ha
  have h1 := size_count hv
  unfold Vec.plusEqScaled
  refine ⟨?_, fun hs hap => ?_⟩
  · rintro ⟨o, ho, hne⟩
    rw [contents_length (hl o ho), contents_length hv] at hne
    rw [if_pos]
    rw [List.any_eq_true]
    refine ⟨o, ho, ?_⟩
    have := size_count (hl o ho)
    simp only [bne_iff_ne]
    omega
  · have hs' : ∀ o ∈ os, o.2.size h = Vec.size h (.basic a) := by
      intro o ho
      have e := hs o ho
      rw [contents_length (hl o ho), contents_length hv] at e
      rw [size_count (hl o ho), h1, e]
    rw [if_neg]
    · cases os with
      | nil => exact plusEq_basic_apart a [] ha (by simp) (by simp) (by simp)
      | cons o os =>
        obtain ⟨k1, e1, w1⟩ := scaleAndAdd_ok ha (hl o (by simp)) (hs' o (by simp)) o.1
        obtain ⟨k2, e2, w2⟩ := plusEq_basic_apart a os (h := k1) (by rw [w1.1.1]; exact ha)
          (fun p hp => (live_shape w1.1 _).2 (hl p (by simp [hp])))
          (fun p hp => by
            rw [size_shape w1.1, hs' p (by simp [hp]), ← size_shape w1.1]
            rfl)
          (fun p hp => apart_shape w1.1 (hap p (by simpa using hp)))
        refine ⟨k2, ?_, SameShape.trans w1.1 w2.1, ?_, fun b i hne => ?_⟩
        · unfold Vec.doPlusEqScaled
          dsimp only
          rw [List.foldlM_cons, e1]
          exact e2
        · rw [w2.2.1]
          unfold linear
          rw [w1.2.1]
          unfold linear
          have hcont : ∀ p ∈ os, contents k1 p.2 = contents h p.2 := fun p hp => writes_apart w1 (hap p (by simpa using hp))
          apply List.ext_getElem?
          intro i
          simp only [List.getElem?_mapIdx, List.map_cons, List.map_nil, List.sum_cons, List.sum_nil, add_zero, Option.map_map]
          have hsum : (os.map fun p => p.1 * (contents k1 p.2).getD i 0) = os.map fun p => p.1 * (contents h p.2).getD i 0 := by
            apply List.map_congr_left
            intro p hp
            rw [hcont p hp]
          cases (contents h (.basic a))[i]? with
          | none => rfl
          | some x =>
            simp only [Option.map_some, Function.comp]
            rw [hsum, add_assoc]
        · rw [w2.2.2 b i (fun j hj => by rw [range_shape w1.1] at hj; rw [element_shape w1.1]; exact hne j hj), w1.2.2 b i hne]
    · intro hany
      rw [List.any_eq_true] at hany
      obtain ⟨o, ho, hb⟩ := hany
      simp only [bne_iff_ne] at hb
      exact hb (hs' o ho)

/-- C137. Adding multiples of vectors to a range of a vector: any operand may be the range itself. -/
theorem adding_to_subvector (h : Heap K) (u : Vec) (first num : Int) (os : List (K × Vec)) (hv : Live h (.sub u first num))
    (hl : ∀ o ∈ os, Live h o.2) (hs : ∀ o ∈ os, (contents h o.2).length = (contents h (.sub u first num)).length)
    (hnb : ∀ o ∈ os, NotBehind h (.sub u first num) o.2) :
    ∃ h', Vec.plusEqScaled h (.sub u first num) os = .ok h' ∧
      Writes h h' (.sub u first num) (linear h (.sub u first num) os) := by
  have hs' : ∀ o ∈ os, o.2.size h = num := by
    intro o ho
    have e := hs o ho
    rw [contents_length (hl o ho), contents_length hv] at e
    have := size_count hv
    simp only [Vec.size] at this
    rw [size_count (hl o ho), e, ← this]
  unfold Vec.plusEqScaled
  rw [if_neg]
  · exact plusEq_sub hv os hl hs' hnb
  · intro hany
    rw [List.any_eq_true] at hany
    obtain ⟨o, ho, hb⟩ := hany
    simp only [bne_iff_ne, Vec.size] at hb
    exact hb (hs' o ho)
end

/-- C137. With the vector itself as a later operand the result is wrong, and another one than for a range with the same values: adding
2 y + 3 x to x gives 4 (x + 2 y) for a vector, and 4 x + 2 y for a range. -/
theorem adding_self_wrong :
    Vec.plusEqScaled ([[1], [10]] : Heap ℚ) (.basic 0) [(2, .basic 1), (3, .basic 0)] = .ok [[84], [10]] ∧
    Vec.plusEqScaled ([[1], [10]] : Heap ℚ) (.sub (.basic 0) 0 1) [(2, .basic 1), (3, .sub (.basic 0) 0 1)] = .ok [[24], [10]] ∧
    linear ([[1], [10]] : Heap ℚ) (.basic 0) [(2, .basic 1), (3, .basic 0)] = [24] := by decide +kernel

/-- C137. When a continuous state can be made of a vector: the sizes add up, none is negative, and there are not more velocities than
positions. -/
theorem continuous_state_iff (h : Heap K) (s : Vec) (hs : Live h s) (nq nv nz : Int) :
    ((∃ c, CState.make h s nq nv nz = .ok c) ↔ 0 ≤ nv ∧ nv ≤ nq ∧ 0 ≤ nz ∧ nq + nv + nz = (contents h s).length) ∧
    (nq + nv + nz ≠ (contents h s).length → CState.make h s nq nv nz = .error .outOfRange) ∧
    (∃ c, CState.ofVector h s = .ok c ∧ contents h c.q = [] ∧ contents h c.v = [] ∧ contents h c.z = contents h s) := by
  have hc := size_count hs
  rw [contents_length hs]
  refine ⟨⟨?_, ?_⟩, ?_, ?_⟩
  · rintro ⟨c, e⟩
    have := ((make_iff hs nq nv nz c).1 e).1
    omega
  · intro e
    exact ⟨_, (make_iff hs nq nv nz _).2 ⟨by omega, rfl⟩⟩
  · intro e
    unfold CState.make
    rw [if_pos (by omega)]
  · refine ⟨⟨s, .sub s 0 0, .sub s 0 0, .sub s 0 (s.size h)⟩, ?_, by simp [contents, range], by simp [contents, range], ?_⟩
    · unfold CState.ofVector Vec.mkSub
      dsimp only
      rw [if_neg (by omega), if_neg (by omega)]
      rfl
    · simp [contents, range, hc]

/-- C137. However its memory is written later, the values of a continuous state are the positions, the velocities and the others, one after the
other, in the numbers given. -/
theorem continuous_state_parts (h h' : Heap K) (s : Vec) (hs : Live h s) (nq nv nz : Int) (c : CState)
    (hm : CState.make h s nq nv nz = .ok c) (hsh : SameShape h h') :
    c.state = s ∧ contents h' c.state = contents h' c.q ++ contents h' c.v ++ contents h' c.z ∧
      (contents h' c.q).length = nq ∧ (contents h' c.v).length = nv ∧ (contents h' c.z).length = nz ∧
      Live h' c.state ∧ Live h' c.q ∧ Live h' c.v ∧ Live h' c.z := by
  obtain ⟨hp, rfl⟩ := (make_iff hs nq nv nz c).1 hm
  have hs' := (live_shape hsh s).2 hs
  have hp' : 0 ≤ nv ∧ nv ≤ nq ∧ 0 ≤ nz ∧ s.size h' = nq + nv + nz := by rw [size_shape hsh]; exact hp
  obtain ⟨l1, l2, l3⟩ := parts hs' hp'
  refine ⟨rfl, contents_parts hs' hp', ?_, ?_, ?_, hs', l1, l2, l3⟩
  · rw [contents_length l1, ← size_count l1]; rfl
  · rw [contents_length l2, ← size_count l2]; rfl
  · rw [contents_length l3, ← size_count l3]; rfl

/-- C137. Writing one part changes this part of the state and leaves the two others alone. -/
theorem writing_parts (h h' : Heap K) (s : Vec) (hs : Live h s) (nq nv nz : Int) (c : CState)
    (hm : CState.make h s nq nv nz = .ok c) (xs : List K) :
    (Writes h h' c.q xs → contents h' c.state = xs ++ contents h c.v ++ contents h c.z) ∧
    (Writes h h' c.v xs → contents h' c.state = contents h c.q ++ xs ++ contents h c.z) ∧
    (Writes h h' c.z xs → contents h' c.state = contents h c.q ++ contents h c.v ++ xs) ∧
    (Writes h h' c.state xs → contents h' c.q = xs.take nq.toNat ∧ contents h' c.v = (xs.drop nq.toNat).take nv.toNat ∧
      contents h' c.z = xs.drop (nq.toNat + nv.toNat)) := by
  obtain ⟨hp, rfl⟩ := (make_iff hs nq nv nz c).1 hm
  obtain ⟨a1, a2, a3⟩ := parts_apart (h := h) (s := s) hp
  have key := fun (h' : Heap K) (hsh : SameShape h h') => continuous_state_parts h h' s hs nq nv nz _ hm hsh
  refine ⟨fun w => ?_, fun w => ?_, fun w => ?_, fun w => ?_⟩
  · have := (key h' w.1).2.1
    dsimp only at this w ⊢
    rw [this, w.2.1, writes_apart w a1, writes_apart w a2]
  · have := (key h' w.1).2.1
    dsimp only at this w ⊢
    rw [this, w.2.1, writes_apart w (apart_symm a1), writes_apart w a3]
  · have := (key h' w.1).2.1
    dsimp only at this w ⊢
    rw [this, w.2.1, writes_apart w (apart_symm a2), writes_apart w (apart_symm a3)]
  · obtain ⟨-, e, lq, lv, lz, -⟩ := key h' w.1
    dsimp only at e lq lv lz w ⊢
    rw [w.2.1] at e
    have lq' : (contents h' (.sub s 0 nq)).length = nq.toNat := by omega
    have lv' : (contents h' (.sub s nq nv)).length = nv.toNat := by omega
    rw [e]
    refine ⟨?_, ?_, ?_⟩
    · rw [List.append_assoc, List.take_left' lq']
    · rw [List.append_assoc, List.drop_left' lq', List.take_left' lv']
    · rw [List.drop_left' (by rw [List.length_append, lq', lv'])]

/-- C137. The checks of a debug build after the construction always succeed. -/
theorem continuous_state_invariants (h : Heap K) (s : Vec) (hs : Live h s) (nq nv nz : Int) (c : CState)
    (hm : CState.make h s nq nv nz = .ok c) : c.demandInvariants h = .ok () := by
  obtain ⟨hp, rfl⟩ := (make_iff hs nq nv nz c).1 hm
  obtain ⟨l1, l2, l3⟩ := parts hs hp
  have hc := size_count hs
  have ht : (nq + nv + nz).toNat = (range h s).count := by omega
  have he : ((List.range (nq + nv + nz).toNat).mapM fun (i : Nat) => s.checked h i) =
      .ok ((List.range (range h s).count).map (element h s)) := by
    rw [ht]
    apply mapM_map
    intro i hi
    exact checked_nat hs i (List.mem_range.1 hi)
  have hinj : ∀ i j, element h s i = element h s j → i = j := by
    intro i j e
    simp only [element, Prod.mk.injEq] at e
    omega
  have hnd : ((List.range (range h s).count).map (element h s)).Nodup := List.Nodup.map (fun i j => hinj i j) List.nodup_range
  have hpart : ∀ (f n : Int), Live h (.sub s f n) → demandElements h ((List.range (range h s).count).map (element h s)) (.sub s f n) =
      .ok ((List.range n.toNat).map fun i => element h s (f.toNat + i)) := by
    intro f n hl
    unfold demandElements
    simp only [Vec.size]
    apply mapM_map
    intro i hi
    have hi' := List.mem_range.1 hi
    rw [checked_nat hl i hi']
    have e : element h (.sub s f n) i = element h s (f.toNat + i) := by
      simp only [element, range]
      congr 1
      omega
    show (if element h (.sub s f n) i ∈ _ then _ else _) = _
    rw [e, if_pos]
    rw [List.mem_map]
    obtain ⟨-, -, -, h4⟩ := hl
    exact ⟨_, List.mem_range.2 (by omega), rfl⟩
  have hall : ((List.range nq.toNat).map fun i => element h s ((0 : Int).toNat + i)) ++
      ((List.range nv.toNat).map fun i => element h s (nq.toNat + i)) ++
      ((List.range nz.toNat).map fun i => element h s ((nq + nv).toNat + i)) = (List.range (range h s).count).map (element h s) := by
    have e1 : (range h s).count = nq.toNat + nv.toNat + nz.toNat := by omega
    have e2 : (nq + nv).toNat = nq.toNat + nv.toNat := by omega
    rw [e1, e2, List.range_add, List.range_add, List.map_append, List.map_append, List.map_map, List.map_map]
    simp only [Int.toNat_zero, Nat.zero_add]
    rfl
  have d1 : decide (Vec.size h (.sub s 0 nq) ≥ 0) = true := by rw [decide_eq_true_iff]; simp only [Vec.size]; omega
  have d2 : decide (Vec.size h (.sub s nq nv) ≥ 0) = true := by rw [decide_eq_true_iff]; simp only [Vec.size]; omega
  have d3 : decide (Vec.size h (.sub s (nq + nv) nz) ≥ 0) = true := by rw [decide_eq_true_iff]; simp only [Vec.size]; omega
  have d4 : decide (Vec.size h (.sub s nq nv) ≤ Vec.size h (.sub s 0 nq)) = true := by
    rw [decide_eq_true_iff]; simp only [Vec.size]; omega
  have d5 : decide (s.size h = Vec.size h (.sub s 0 nq) + Vec.size h (.sub s nq nv) + Vec.size h (.sub s (nq + nv) nz)) = true := by
    rw [decide_eq_true_iff]
    exact hp.2.2.2
  have d6 : decide ((((List.range (range h s).count).map (element h s)).eraseDups.length : Int) =
      Vec.size h (.sub s 0 nq) + Vec.size h (.sub s nq nv) + Vec.size h (.sub s (nq + nv) nz)) = true := by
    rw [decide_eq_true_iff, eraseDups_nodup _ hnd, List.length_map, List.length_range]
    simp only [Vec.size]
    omega
  unfold CState.demandInvariants
  dsimp only
  rw [d1, d2, d3, d4, d5]
  simp only [if_true, bind, Except.bind]
  rw [show ((List.range (Vec.size h (.sub s 0 nq) + Vec.size h (.sub s nq nv) + Vec.size h (.sub s (nq + nv) nz)).toNat).mapM
      fun (i : Nat) => s.checked h i) = _ from he]
  dsimp only
  rw [d6, if_pos rfl]
  dsimp only
  rw [hpart _ _ l1]
  dsimp only
  rw [hpart _ _ l2]
  dsimp only
  rw [hpart _ _ l3]
  dsimp only
  rw [hall, d6]
  rfl

/-- C137. A clone of a state with its own values has the same values and sizes, and shares no elements with any vector: whatever is written to
one of them is not seen in the other one. A state that is a range of another vector cannot be cloned. -/
theorem cloning_state (h : Heap K) (s : Vec) (hs : Live h s) (nq nv nz : Int) (c : CState) (hm : CState.make h s nq nv nz = .ok c) :
    (∀ a, s = .basic a → ∃ h' d, c.clone h = .ok (h', d) ∧ Live h' d.state ∧
      contents h' d.state = contents h s ∧ contents h' d.q = contents h c.q ∧ contents h' d.v = contents h c.v ∧
      contents h' d.z = contents h c.z ∧
      ∀ u, Live h u → Live h' u ∧ contents h' u = contents h u ∧ Apart h' d.state u ∧ Apart h' u d.state) ∧
    (∀ u f n, s = .sub u f n → c.clone h = .error .aborts) := by
  obtain ⟨hp, rfl⟩ := (make_iff hs nq nv nz c).1 hm
  refine ⟨?_, ?_⟩
  · rintro a rfl
    have ha : a < h.length := hs
    have hl : Live (h ++ [valuesAt h a]) (.basic h.length) := by simp [Live]
    have hval : valuesAt (h ++ [valuesAt h a]) h.length = valuesAt h a := by
      simp [valuesAt, List.getD_eq_getElem?_getD]
    have hcont : contents (h ++ [valuesAt h a]) (.basic h.length) = contents h (.basic a) := by
      simp only [valuesAt] at hval
      simp only [contents, range, List.drop_zero, List.take_length]
      rw [valuesAt, hval]
    have hsz : Vec.size (h ++ [valuesAt h a]) (.basic h.length) = nq + nv + nz := by
      rw [← hp.2.2.2]
      simp only [Vec.size, hval]
    have hp' : 0 ≤ nv ∧ nv ≤ nq ∧ 0 ≤ nz ∧ Vec.size (h ++ [valuesAt h a]) (.basic h.length) = nq + nv + nz :=
      ⟨hp.1, hp.2.1, hp.2.2.1, hsz⟩
    have hmk := (make_iff hl nq nv nz _).2 ⟨hp', rfl⟩
    have sub_eq : ∀ f n : Int, contents (h ++ [valuesAt h a]) (.sub (.basic h.length) f n) = contents h (.sub (.basic a) f n) := by
      intro f n
      apply List.ext_getElem?
      intro i
      rw [sub_getElem?, sub_getElem?]
      simp only [range, hval]
    refine ⟨h ++ [valuesAt h a], ⟨.basic h.length, .sub (.basic h.length) 0 nq, .sub (.basic h.length) nq nv,
      .sub (.basic h.length) (nq + nv) nz⟩, ?_, hl, hcont, sub_eq _ _, sub_eq _ _, sub_eq _ _, fun u hu => ?_⟩
    · unfold CState.clone
      dsimp only [Vec.size]
      rw [hmk]
      rfl
    · obtain ⟨e, l⟩ := live_append hu (valuesAt h a)
      have hb := (live_range hu).1
      have : Apart (h ++ [valuesAt h a]) (.basic h.length) u := by
        intro i _ j _ e2
        simp only [element, range, e, Prod.mk.injEq] at e2
        omega
      exact ⟨l, contents_append hu _, this, apart_symm this⟩
  · rintro u f n rfl
    rfl

/-- C137. Setting a state from another one copies all values, if all numbers of variables are the same; otherwise it throws and nothing is
changed. -/
theorem setting_state (h : Heap K) (c d : CState) (hc : Live h c.state) (hd : Live h d.state) :
    (c.state.size h = d.state.size h ∧ c.q.size h = d.q.size h ∧ c.v.size h = d.v.size h ∧ c.z.size h = d.z.size h →
      ∃ h', c.setFrom h d = .ok h' ∧ Writes h h' c.state (contents h d.state)) ∧
    (¬ (c.state.size h = d.state.size h ∧ c.q.size h = d.q.size h ∧ c.v.size h = d.v.size h ∧ c.z.size h = d.z.size h) →
      c.setFrom h d = .error .throws) := by
  unfold CState.setFrom
  refine ⟨?_, ?_⟩
  · rintro ⟨h1, h2, h3, h4⟩
    rw [copyToVector_ok hd]
    have hn : ((contents h d.state).length : Int) = c.state.size h := by
      rw [contents_length hd, h1, size_count hd]
    obtain ⟨h', e, w⟩ := setFromVector_ok hc hn
    refine ⟨h', ?_, w⟩
    simp only [h1, h2, h3, h4, decide_true]
    exact e
  · intro hne
    by_cases h1 : c.state.size h = d.state.size h
    · by_cases h2 : c.q.size h = d.q.size h
      · by_cases h3 : c.v.size h = d.v.size h
        · have h4 : ¬ c.z.size h = d.z.size h := fun h4 => hne ⟨h1, h2, h3, h4⟩
          simp only [h1, h2, h3, h4, decide_true, decide_false]
          rfl
        · simp only [h1, h2, h3, decide_true, decide_false]
          rfl
      · simp only [h1, h2, decide_true, decide_false]
        rfl
    · simp only [h1, decide_false]
      rfl

/-- A state of two positions, one velocity and one other variable. -/
def pendulumHeap : Heap ℚ := [[1, 2, 3, 4], [7, 7, 7, 7]]

/-- The state. -/
def pendulumState : CState := ⟨.basic 0, .sub (.basic 0) 0 2, .sub (.basic 0) 2 1, .sub (.basic 0) 3 1⟩

example : Live pendulumHeap (.basic 0) ∧ CState.make pendulumHeap (.basic 0) 2 1 1 = .ok pendulumState ∧
    contents pendulumHeap pendulumState.q = [1, 2] ∧ contents pendulumHeap pendulumState.v = [3] ∧
    (pendulumState.v.setAtIndex pendulumHeap 0 9) = .ok [[1, 2, 9, 4], [7, 7, 7, 7]] ∧
    CState.make pendulumHeap (.basic 0) 1 2 1 = .error .throws ∧ CState.make pendulumHeap (.basic 0) 1 1 1 = .error .outOfRange := by
  refine ⟨by simp [Live, pendulumHeap], by decide +kernel⟩

example : (pendulumState.clone pendulumHeap).toOption.map Prod.fst = some [[1, 2, 3, 4], [7, 7, 7, 7], [1, 2, 3, 4]] ∧
    Vec.plusEqScaled pendulumHeap (.basic 0) [(3, .basic 0), (2, .basic 1)] = .ok [[18, 22, 26, 30], [7, 7, 7, 7]] ∧
    World.run (⟨[], []⟩ : World ℚ) [.new [1, 2, 3], .sub (some 0) 1 2, .setZero 1, .sub (some 1) 0 3] =
      .ok ⟨[[1, 0, 0]], [.basic 0, .sub (.basic 0) 1 2]⟩ := by
  refine ⟨by decide +kernel, by decide +kernel, rfl⟩

end Maliput.Props
