import Mathlib.Tactic.Linarith
import Mathlib.Tactic.FieldSimp
import Mathlib.Tactic.Ring
import Mathlib.Tactic.Positivity
import Verif.Spec.DouglasPeucker

set_option autoImplicit false

/-! Lemmas about the simplification of polylines and about distances. -/
namespace Maliput.DouglasPeucker

open Spec Maliput.Linear

section
variable {α K : Type} [LinearOrder K]

theorem maxFrom_spec {key : α → Option K} {f : α → K} (hk : ∀ x, key x = some (f x)) (l : List α) :
    ∀ (pre : List α) (b : Nat) (x : α), pre[b]? = some x → (∀ y ∈ pre, f y ≤ f x) →
      ∃ z, (pre ++ l)[maxFrom key l pre.length b x]? = some z ∧ ∀ y ∈ pre ++ l, f y ≤ f z := by
  induction l with
  | nil => intro pre b x hb hx; exact ⟨x, by simpa [maxFrom] using hb, by simpa using hx⟩
  | cons y l ih =>
    intro pre b x hb hx
    simp only [maxFrom, hk, less]
    have e : pre ++ y :: l = (pre ++ [y]) ++ l := by simp
    have e2 : pre.length + 1 = (pre ++ [y]).length := by simp
    split
    · next h =>
      rw [e, e2]
      have h := of_decide_eq_true h
      refine ih (pre ++ [y]) pre.length y (by simp) ?_
      intro w hw
      rcases List.mem_append.1 hw with hw | hw
      · exact (hx w hw).trans h.le
      · rw [List.mem_singleton.1 hw]
    · next h =>
      rw [e, e2]
      have h : ¬ f x < f y := by simpa using h
      refine ih (pre ++ [y]) b x ?_ ?_
      · have hlt : b < pre.length := by
          by_contra hc; rw [List.getElem?_eq_none (by omega)] at hb; cases hb
        rw [List.getElem?_append_left hlt]; exact hb
      · intro w hw
        rcases List.mem_append.1 hw with hw | hw
        · exact hx w hw
        · rw [List.mem_singleton.1 hw]; exact not_lt.1 h

theorem maxElement_spec {key : α → Option K} {f : α → K} (hk : ∀ x, key x = some (f x)) {l : List α} (hl : l ≠ []) :
    ∃ z, l[maxElement key l]? = some z ∧ ∀ y ∈ l, f y ≤ f z := by
  rcases l with _ | ⟨x, l⟩
  · exact absurd rfl hl
  · have := maxFrom_spec hk l [x] 0 x (by simp) (by simp)
    simpa [maxElement] using this

omit [LinearOrder K] in
theorem simplified_append {near : α → α → α → Prop} {l l' out out' : List α} (hl : l ≠ [])
    (h : Simplified near l out) (h' : Simplified near l' out') : Simplified near (l ++ l') (out ++ out') := by
  obtain ⟨ks, h1, h2, h3, h4⟩ := h
  obtain ⟨ks', h1', h2', h3', h4'⟩ := h'
  have hpos : 0 < l.length := List.length_pos_iff.2 hl
  have hl' : ks ≠ [] := by rintro rfl; simp at h2
  have hks' : ks' ≠ [] := by rintro rfl; simp at h2'
  have hout' : out' ≠ [] := by
    rintro rfl
    simp only [List.map_nil] at h1'
    exact hks' (List.map_eq_nil_iff.1 h1'.symm)
  have hl'' : l' ≠ [] := by
    rintro rfl
    obtain ⟨x, o, rfl⟩ := List.exists_cons_of_ne_nil hout'
    obtain ⟨k, ko, rfl⟩ := List.exists_cons_of_ne_nil hks'
    simp at h1'
  have hpos' : 0 < l'.length := List.length_pos_iff.2 hl''
  have hmem : ∀ k ∈ ks, k < l.length := by
    intro k hk
    have : l[k]? ∈ ks.map (fun i => l[i]?) := List.mem_map.2 ⟨k, hk, rfl⟩
    rw [← h1] at this
    obtain ⟨x, -, hx⟩ := List.mem_map.1 this
    by_contra hc
    rw [List.getElem?_eq_none (by omega)] at hx; cases hx
  refine ⟨ks ++ ks'.map (· + l.length), ?_, ?_, ?_, ?_⟩
  · rw [List.map_append, List.map_append, h1, h1', List.map_map]
    congr 1
    · refine List.map_congr_left fun k hk => ?_
      rw [List.getElem?_append_left (hmem k hk)]
    · refine List.map_congr_left fun k _ => ?_
      simp only [Function.comp]
      rw [List.getElem?_append_right (by omega)]
      simp
  · rw [List.head?_append, h2]; rfl
  · rw [List.getLast?_append, List.getLast?_map, h3']
    simp; omega
  · rw [List.isChain_append]
    refine ⟨?_, ?_, ?_⟩
    · refine (h4.imp_of_mem_imp ?_)
      intro i j hi hj hij
      refine ⟨hij.1, ?_⟩
      intro k hik hkj x y z hx hy hz
      have := hmem j hj
      rw [List.getElem?_append_left (by omega)] at hx hy hz
      exact hij.2 k hik hkj x y z hx hy hz
    · rw [List.isChain_map]
      refine h4'.imp ?_
      intro i j hij
      refine ⟨by omega, ?_⟩
      intro k hik hkj x y z hx hy hz
      rw [List.getElem?_append_right (by omega), Nat.add_sub_cancel] at hx hy
      rw [List.getElem?_append_right (by omega)] at hz
      exact hij.2 (k - l.length) (by omega) (by omega) x y z hx hy hz
    · intro i hi j hj
      rw [h3] at hi
      simp only [List.head?_map, h2', Option.map_some, Option.mem_def, Option.some.injEq, zero_add] at hi hj
      subst hi; subst hj
      refine ⟨by omega, ?_⟩
      intro k; omega

omit [LinearOrder K] in
theorem simplified_single (near : α → α → α → Prop) (x : α) : Simplified near [x] [x] :=
  ⟨[0], rfl, rfl, rfl, by simp⟩

omit [LinearOrder K] in
theorem simplified_ends {near : α → α → α → Prop} (a : α) (l : List α) (hl : l ≠ [])
    (h : ∀ z ∈ l.dropLast, near a (l.getLast hl) z) : Simplified near (a :: l) [a, l.getLast hl] := by
  have hpos : 0 < l.length := List.length_pos_iff.2 hl
  have e : (a :: l)[l.length]? = some (l.getLast hl) := by
    obtain ⟨n, hn⟩ : ∃ n, l.length = n + 1 := ⟨l.length - 1, by omega⟩
    rw [hn, List.getElem?_cons_succ, List.getLast_eq_getElem]
    have : l.length - 1 = n := by omega
    simp [← this]
  refine ⟨[0, l.length], by simp only [List.map_cons, List.map_nil, e, List.getElem?_cons_zero], rfl, by simp, ?_⟩
  simp only [List.isChain_cons_cons, List.isChain_singleton, and_true]
  refine ⟨hpos, ?_⟩
  intro k hk hkl x y z hx hy hz
  rw [e] at hy
  simp only [List.getElem?_cons_zero, Option.some.injEq] at hx hy
  subst hx; subst hy
  apply h
  obtain ⟨j, rfl⟩ : ∃ j, k = j + 1 := ⟨k - 1, by omega⟩
  rw [List.getElem?_cons_succ] at hz
  rw [List.mem_iff_getElem?]
  refine ⟨j, ?_⟩
  rw [List.dropLast_eq_take, List.getElem?_take, if_pos (by omega), hz]

/-- The distances to a line are either all defined or all undefined. -/
def Uniform (dist : α → α → α → Option K) : Prop :=
  ∀ a b, (∃ f : α → K, ∀ x, dist a b x = some (f x)) ∨ ∀ x, dist a b x = none

theorem simplify_spec {dist : α → α → α → Option K} (hd : Uniform dist) (tolerance : K) (n : Nat) :
    ∀ l : List α, l.length ≤ n → l ≠ [] →
      Simplified (fun a b z => ∀ d, dist a b z = some d → d ≤ tolerance) l (simplify dist tolerance l) := by
  induction n with
  | zero => intro l h h'; exact absurd (List.length_eq_zero_iff.1 (by omega)) h'
  | succ n ih =>
    intro l hn hl
    rcases l with _ | ⟨first, _ | ⟨second, rest⟩⟩
    · exact absurd rfl hl
    · rw [simplify]; exact simplified_single _ _
    · rw [simplify]
      have hlt := maxElement_lt (dist first ((second :: rest).getLast (by simp)))
        (first :: (second :: rest).dropLast) (by simp)
      split
      · have e := List.take_append_drop (maxElement (dist first ((second :: rest).getLast (by simp)))
          (first :: (second :: rest).dropLast) + 1) (first :: second :: rest)
        simp only [List.length_cons, List.length_dropLast] at hlt hn
        conv => arg 2; rw [← e]
        refine simplified_append (by simp) (ih _ ?_ (by simp)) (ih _ ?_ ?_)
        · simp; omega
        · simp; omega
        · intro hc
          have := congrArg List.length hc
          simp at this; omega
      · next hg =>
        apply simplified_ends
        intro z hz d hzd
        rcases hd first ((second :: rest).getLast (by simp)) with ⟨f, hf⟩ | hf
        · obtain ⟨w, hw1, hw2⟩ := maxElement_spec hf (l := first :: (second :: rest).dropLast) (by simp)
          rw [hw1] at hg
          simp only [Option.bind_some, hf, less, decide_eq_true_eq, not_lt] at hg
          rw [hf] at hzd
          cases hzd
          exact (hw2 z (by simp [hz])).trans hg
        · rw [hf] at hzd; cases hzd

omit [LinearOrder K] in
theorem simplified_refl (near : α → α → α → Prop) : ∀ l : List α, l ≠ [] → Simplified near l l
  | [], h => absurd rfl h
  | [x], _ => simplified_single near x
  | x :: y :: l, _ => simplified_append (l := [x]) (l' := y :: l) (by simp) (simplified_single near x)
      (simplified_refl near (y :: l) (by simp))

/-- If no element is farther than the tolerance from the line, only the ends are kept. -/
theorem simplify_ends {dist : α → α → α → Option K} {tolerance : K} (first second : α) (rest : List α)
    (h : ∀ x ∈ first :: (second :: rest).dropLast, ∀ d,
      dist first ((second :: rest).getLast (by simp)) x = some d → d ≤ tolerance) :
    simplify dist tolerance (first :: second :: rest) = [first, (second :: rest).getLast (by simp)] := by
  rw [simplify]
  have hlt := maxElement_lt (dist first ((second :: rest).getLast (by simp)))
    (first :: (second :: rest).dropLast) (by simp)
  generalize hm : maxElement (dist first ((second :: rest).getLast (by simp)))
    (first :: (second :: rest).dropLast) = m at hlt
  rw [if_neg]
  rw [List.getElem?_eq_getElem hlt, Option.bind_some]
  have := h _ (List.getElem_mem hlt)
  generalize dist first ((second :: rest).getLast (by simp)) ((first :: (second :: rest).dropLast)[m]) = o at this
  rcases o with _ | d
  · simp [less]
  · simpa [less] using this d rfl

end

/-! ### Distances -/

theorem dot_self_nonneg (a : V3) : 0 ≤ a.dot a := by unfold V3.dot; nlinarith [sq_nonneg a.x, sq_nonneg a.y, sq_nonneg a.z]

theorem norm_sq (a : V3) : a.norm * a.norm = a.dot a := Real.mul_self_sqrt (dot_self_nonneg a)

theorem norm_nonneg (a : V3) : 0 ≤ a.norm := Real.sqrt_nonneg _

theorem norm_eq_zero {a : V3} : a.norm = 0 ↔ a = ⟨0, 0, 0⟩ := by
  unfold V3.norm
  rw [Real.sqrt_eq_zero (dot_self_nonneg a)]
  unfold V3.dot
  constructor
  · intro h
    have hx : a.x ^ 2 = 0 := by nlinarith [sq_nonneg a.x, sq_nonneg a.y, sq_nonneg a.z]
    have hy : a.y ^ 2 = 0 := by nlinarith [sq_nonneg a.x, sq_nonneg a.y, sq_nonneg a.z]
    have hz : a.z ^ 2 = 0 := by nlinarith [sq_nonneg a.x, sq_nonneg a.y, sq_nonneg a.z]
    ext
    · exact pow_eq_zero_iff (by norm_num) |>.1 hx
    · exact pow_eq_zero_iff (by norm_num) |>.1 hy
    · exact pow_eq_zero_iff (by norm_num) |>.1 hz
  · rintro rfl; simp

theorem normalized_some {a : V3} (h : a.norm ≠ 0) : a.normalized = some (V3.smul (1 / a.norm) a) := by
  simp [V3.normalized, h]

theorem unit_dot {a : V3} (h : a.norm ≠ 0) : (V3.smul (1 / a.norm) a).dot (V3.smul (1 / a.norm) a) = 1 := by
  have := norm_sq a
  have e : (V3.smul (1 / a.norm) a).dot (V3.smul (1 / a.norm) a) = a.dot a / (a.norm * a.norm) := by
    simp only [V3.smul, V3.dot]; field_simp
  rw [e, this, div_self]
  rw [← this]; exact mul_ne_zero h h

/-- The foot of a point on a line is nearest to it. -/
theorem foot_line (w r : V3) (t t0 : ℝ) (h : t0 * r.dot r = r.dot w) :
    (w.x - t0 * r.x) ^ 2 + (w.y - t0 * r.y) ^ 2 + (w.z - t0 * r.z) ^ 2 ≤
      (w.x - t * r.x) ^ 2 + (w.y - t * r.y) ^ 2 + (w.z - t * r.z) ^ 2 := by
  have e : (w.x - t * r.x) ^ 2 + (w.y - t * r.y) ^ 2 + (w.z - t * r.z) ^ 2 -
      ((w.x - t0 * r.x) ^ 2 + (w.y - t0 * r.y) ^ 2 + (w.z - t0 * r.z) ^ 2) =
      (t - t0) ^ 2 * r.dot r + 2 * (t - t0) * (t0 * r.dot r - r.dot w) := by
    simp only [V3.dot]; ring
  have := mul_nonneg (sq_nonneg (t - t0)) (dot_self_nonneg r)
  rw [h, sub_self, mul_zero, add_zero] at e
  linarith

theorem distanceToALine_eq (p r q : V3) (hr : r.norm ≠ 0) :
    distanceToALine p r q = some (distance q (along p r (r.dot (q.sub p) / r.dot r))) := by
  rw [distanceToALine, normalized_some hr, Option.map_some]
  congr 1
  have hN := norm_sq r
  have key : ∀ c : ℝ, (V3.smul (1 / r.norm) r).dot (q.sub p) * (1 / r.norm * c) =
      r.dot (q.sub p) / r.dot r * c := by
    intro c
    rw [← hN]
    simp only [V3.smul, V3.dot]
    field_simp
  have kx := key r.x
  have ky := key r.y
  have kz := key r.z
  unfold V3.norm distance
  congr 1
  simp only [V3.dot, V3.sub, V3.smul, along] at kx ky kz ⊢
  simp only [V3.norm, V3.dot] at kx ky kz ⊢
  rw [kx, ky, kz]
  ring

theorem cauchy (a b : V3) : a.dot b ^ 2 ≤ a.dot a * b.dot b := by
  simp only [V3.dot]
  nlinarith [sq_nonneg (a.x * b.y - a.y * b.x), sq_nonneg (a.x * b.z - a.z * b.x), sq_nonneg (a.y * b.z - a.z * b.y)]

theorem smul_norm_ne {k : ℝ} {a : V3} (hk : k ≠ 0) (ha : a.norm ≠ 0) : (V3.smul k a).norm ≠ 0 := by
  rw [Ne, norm_eq_zero] at ha ⊢
  intro h
  apply ha
  have hx := congrArg V3.x h
  have hy := congrArg V3.y h
  have hz := congrArg V3.z h
  simp only [V3.smul, mul_eq_zero, hk, false_or] at hx hy hz
  ext <;> assumption

theorem sub_norm_zero {a b : V3} : (b.sub a).norm = 0 ↔ a = b := by
  rw [norm_eq_zero]
  constructor
  · intro h
    have hx := congrArg V3.x h
    have hy := congrArg V3.y h
    have hz := congrArg V3.z h
    simp only [V3.sub] at hx hy hz
    ext <;> linarith
  · rintro rfl; simp [V3.sub]

theorem lineDistance_none {a b : V3} (h : a = b) (x : V3) : lineDistance a b x = none := by
  simp [lineDistance, V3.normalized, sub_norm_zero.2 h]

theorem lineDistance_some {a b : V3} (h : a ≠ b) (x : V3) :
    ∃ s, lineDistance a b x = some (distance x (along a (b.sub a) s)) ∧
      ∀ t, distance x (along a (b.sub a) s) ≤ distance x (along a (b.sub a) t) := by
  have hr : (b.sub a).norm ≠ 0 := fun hc => h (sub_norm_zero.1 hc)
  set r := b.sub a with hrdef
  have hk : 1 / r.norm ≠ 0 := one_div_ne_zero hr
  set u := V3.smul (1 / r.norm) r with hu
  have hun := smul_norm_ne hk hr
  set s := u.dot (x.sub a) / u.dot u * (1 / r.norm) with hs
  have hal : ∀ c, along a u c = along a r (c * (1 / r.norm)) := by
    intro c; simp only [along, hu, V3.smul]; ext <;> simp <;> ring
  refine ⟨s, ?_, fun t' => ?_⟩
  · rw [lineDistance, ← hrdef, normalized_some hr, Option.bind_some, distanceToALine_eq _ _ _ hun, ← hu, hal]
  · have huu : u.dot u ≠ 0 := by rw [← norm_sq]; exact mul_ne_zero hun hun
    rw [hs, ← hal]
    have e : along a r t' = along a u (t' * r.norm) := by
      rw [hal, mul_assoc, mul_one_div_cancel hr, mul_one]
    rw [e]
    apply Real.sqrt_le_sqrt
    have := foot_line (x.sub a) u (t' * r.norm) (u.dot (x.sub a) / u.dot u) (by rw [div_mul_cancel₀ _ huu])
    simp only [V3.sub, along] at this ⊢
    calc _ = _ := by ring
      _ ≤ _ := this
      _ = _ := by ring

theorem lineDistance_uniform {α : Type} (pos : α → V3) :
    Uniform (fun a b x => lineDistance (pos a) (pos b) (pos x)) := by
  intro a b
  by_cases h : pos a = pos b
  · exact .inr fun x => lineDistance_none h _
  · refine .inl ⟨fun x => (lineDistance (pos a) (pos b) (pos x)).getD 0, fun x => ?_⟩
    obtain ⟨s, hs, -⟩ := lineDistance_some h (pos x)
    simp [hs]

end Maliput.DouglasPeucker
