import Mathlib.Analysis.InnerProductSpace.PiL2
import Verif.Lemmas.VectorOps

set_option autoImplicit false

/-! Lengths of vectors, and lists that are read off their concatenation. -/
namespace Maliput.Mat

theorem norm_eq {n : Nat} (v : Vec ℝ n) : Vec.norm v = ‖(WithLp.toLp 2 v : EuclideanSpace ℝ (Fin n))‖ := by
  rw [EuclideanSpace.norm_eq, Vec.norm, dot_eq]
  refine congrArg Real.sqrt (Finset.sum_congr rfl fun i _ => ?_)
  rw [Real.norm_eq_abs, sq_abs, sq]

theorem dot_inner {n : Nat} (a b : Vec ℝ n) :
    dot a b = inner ℝ (WithLp.toLp 2 a : EuclideanSpace ℝ (Fin n)) (WithLp.toLp 2 b) := by
  rw [dot_eq, PiLp.inner_apply]
  exact Finset.sum_congr rfl fun i _ => by simp [mul_comm]

/-- Two texts without the character are the same if they are followed by it in the same text. -/
theorem append_char_inj {c : Char} : ∀ {a b x y : List Char}, c ∉ a → c ∉ b → a ++ c :: x = b ++ c :: y → a = b ∧ x = y
  | [], [], x, y, _, _, h => ⟨rfl, by simpa using h⟩
  | [], b :: bs, x, y, _, hb, h => by
    simp only [List.nil_append, List.cons_append, List.cons.injEq] at h
    exact absurd (h.1 ▸ List.mem_cons_self) hb
  | a :: as, [], x, y, ha, _, h => by
    simp only [List.nil_append, List.cons_append, List.cons.injEq] at h
    exact absurd (h.1 ▸ List.mem_cons_self) ha
  | a :: as, b :: bs, x, y, ha, hb, h => by
    simp only [List.cons_append, List.cons.injEq] at h
    obtain ⟨h1, h2⟩ := append_char_inj (fun m => ha (List.mem_cons_of_mem _ m)) (fun m => hb (List.mem_cons_of_mem _ m)) h.2
    exact ⟨by rw [h.1, h1], h2⟩

theorem intercalate_inj {p : List Char} {c : Char} (hp : c ∉ p) : ∀ {l l' : List (List Char)}, l.length = l'.length →
    (∀ a ∈ l, c ∉ a) → (∀ a ∈ l', c ∉ a) → List.intercalate (p ++ [c]) l = List.intercalate (p ++ [c]) l' → l = l'
  | [], [], _, _, _, _ => rfl
  | [a], [b], _, _, _, h => by simpa [List.intercalate] using h
  | a :: a2 :: t, b :: b2 :: t', hl, ha, hb, h => by
    have e : ∀ (u v : List Char) (w : List (List Char)), List.intercalate (p ++ [c]) (u :: v :: w) =
        (u ++ p) ++ c :: List.intercalate (p ++ [c]) (v :: w) := fun u v w => by
      simp [List.intercalate, List.intersperse]
    rw [e, e] at h
    have na : c ∉ a ++ p := fun m => (List.mem_append.1 m).elim (ha a (by simp)) hp
    have nb : c ∉ b ++ p := fun m => (List.mem_append.1 m).elim (hb b (by simp)) hp
    obtain ⟨h1, h2⟩ := append_char_inj na nb h
    have ih := intercalate_inj hp (l := a2 :: t) (l' := b2 :: t') (by simpa using hl)
      (fun x hx => ha x (List.mem_cons_of_mem _ hx)) (fun x hx => hb x (List.mem_cons_of_mem _ hx)) h2
    rw [List.append_cancel_right h1, ih]
  | [_], _ :: _ :: _, hl, _, _, _ => by simp at hl
  | _ :: _ :: _, [_], hl, _, _, _ => by simp at hl
  | [], _ :: _, hl, _, _, _ => by simp at hl
  | _ :: _, [], hl, _, _, _ => by simp at hl

theorem not_mem_intercalate {c : Char} {s : List Char} (hs : c ∉ s) : ∀ {l : List (List Char)}, (∀ a ∈ l, c ∉ a) →
    c ∉ List.intercalate s l
  | [], _ => by simp [List.intercalate]
  | [a], h => by simpa [List.intercalate] using h a (by simp)
  | a :: b :: t, h => by
    have ih := not_mem_intercalate hs (l := b :: t) fun x hx => h x (List.mem_cons_of_mem _ hx)
    have : List.intercalate s (a :: b :: t) = a ++ (s ++ List.intercalate s (b :: t)) := by
      simp [List.intercalate, List.intersperse]
    rw [this]
    intro m
    rcases List.mem_append.1 m with m | m
    · exact h a (by simp) m
    · rcases List.mem_append.1 m with m | m
      · exact hs m
      · exact ih m

end Maliput.Mat
