import Verif.Model.VectorText
import Verif.Spec.VectorText
import Verif.Lemmas.Monad

set_option autoImplicit false

/-!
Reading a vector from text.
-/
namespace Maliput.VectorText

open Spec

variable {R : Type}

theorem find_append {c : Char} (a b : List Char) (h : c ∉ a) (start : Nat) (hs : start ≤ a.length) :
    find c (a ++ c :: b) start = some a.length := by
  rw [find, List.drop_append_of_le_length hs]
  have : (a.drop start ++ c :: b).findIdx? (· == c) = some (a.length - start) := by
    rw [List.findIdx?_append]
    have h1 : (a.drop start).findIdx? (· == c) = none := by
      rw [List.findIdx?_eq_none_iff]
      intro x hx
      have : x ∈ a := List.mem_of_mem_drop hx
      simp only [beq_eq_false_iff_ne, ne_eq]
      rintro rfl
      exact h this
    rw [h1]
    simp [List.findIdx?_cons]
  rw [this, Option.map_some]
  congr 1
  omega

theorem body_cons (p q : List Char) (ps : List (List Char)) : body (p :: q :: ps) = p ++ ',' :: body (q :: ps) := rfl

theorem number_take {stod : List Char → Option R} (hs : Stops stod) {p rest : List Char} {c : Char} (hc : c = ',' ∨ c = '}')
    (hp : ∀ x ∈ p, x ∉ special) {n : Nat} (hn : p.length ≤ n) : number stod ((p ++ c :: rest).take n) = number stod p := by
  have : stod ((p ++ c :: rest).take n) = stod p := by
    rw [List.take_append, List.take_of_length_le hn]
    cases h : n - p.length with
    | zero => simp
    | succ m =>
      rw [List.take_succ_cons]
      exact hs p _ c hc hp
  rw [number, this]
  rfl

theorem values_spec {stod : List Char → Option R} (hs : Stops stod) (ps : List (List Char)) :
    ∀ (pre tail : List Char), ps ≠ [] → pre ≠ [] → '}' ∉ pre → (∀ p ∈ ps, ∀ x ∈ p, x ∉ special) →
      values stod (pre ++ body ps ++ '}' :: tail) ps.length (some (pre.length - 1)) = ps.mapM (number stod) := by
  induction ps with
  | nil => exact fun _ _ h => absurd rfl h
  | cons p ps ih =>
    intro pre tail _ hpre hb hps
    have hp := hps p (by simp)
    have hpos : 0 < pre.length := List.length_pos_iff.mpr hpre
    have hstart : pre.length - 1 + 1 = pre.length := by omega
    have hpb : '}' ∉ p := fun h => hp _ h (by simp [special])
    have hpc : ',' ∉ p := fun h => hp _ h (by simp [special])
    rw [List.length_cons, values]
    simp only [hstart]
    cases ps with
    | nil =>
      have e : pre ++ body [p] ++ '}' :: tail = (pre ++ p) ++ '}' :: tail := rfl
      rw [e]
      have hf : find '}' ((pre ++ p) ++ '}' :: tail) 0 = some (pre ++ p).length :=
        find_append _ _ (by simp [hb, hpb]) 0 (Nat.zero_le _)
      simp only [List.length_nil, if_true, hf, values]
      have hcount : count ((pre ++ p) ++ '}' :: tail) (some (pre ++ p).length) = pre.length + p.length - 1 := by
        rw [List.length_append]
        obtain ⟨m, hm⟩ : ∃ m, pre.length + p.length = m + 1 := ⟨pre.length + p.length - 1, by omega⟩
        rw [hm]
        rfl
      rw [hcount, substr, if_neg (by simp)]
      rw [List.append_assoc, List.drop_left]
      simp only [bind, Except.bind]
      rw [number_take hs (.inr rfl) hp (by omega)]
      simp only [List.mapM_cons, List.mapM_nil, bind, Except.bind, pure, Except.pure]
    | cons q ps =>
      rw [body_cons]
      have e : pre ++ (p ++ ',' :: body (q :: ps)) ++ '}' :: tail = pre ++ (p ++ ',' :: (body (q :: ps) ++ '}' :: tail)) := by
        simp
      have e2 : pre ++ (p ++ ',' :: (body (q :: ps) ++ '}' :: tail)) =
          (pre ++ p ++ [',']) ++ body (q :: ps) ++ '}' :: tail := by simp
      rw [e]
      have hfind : find ',' (pre ++ (p ++ ',' :: (body (q :: ps) ++ '}' :: tail))) pre.length = some (pre.length + p.length) := by
        rw [find, List.drop_left]
        have : (p ++ ',' :: (body (q :: ps) ++ '}' :: tail)).findIdx? (· == ',') = some p.length := by
          have h := find_append (c := ',') p (body (q :: ps) ++ '}' :: tail) hpc 0 (Nat.zero_le _)
          simpa [find] using h
        rw [this, Option.map_some]
      rw [hfind]
      have hne : (q :: ps).length ≠ 0 := by simp
      have hcount : ∀ l : List Char, count l (some (pre.length + p.length)) = pre.length + p.length - 1 := by
        intro l
        obtain ⟨m, hm⟩ : ∃ m, pre.length + p.length = m + 1 := ⟨pre.length + p.length - 1, by omega⟩
        rw [hm]
        rfl
      rw [if_neg hne, hcount, substr, if_neg (by simp), List.drop_left]
      simp only [bind, Except.bind]
      rw [number_take hs (.inl rfl) hp (by omega), e2]
      have hl : pre.length + p.length = (pre ++ p ++ [',']).length - 1 := by simp
      have := ih (pre ++ p ++ [',']) tail (by simp) (by simp) (by simp [hb, hpb]) fun r hr => hps r (by simp [hr])
      rw [hl, this]
      rw [List.mapM_cons (a := p)]
      rfl

theorem count_body {c : Char} (ps : List (List Char)) (h : ∀ p ∈ ps, ∀ x ∈ p, x ∉ special) (hc : c ∈ special) :
    (body ps).count c = if c = ',' then ps.length - 1 else 0 := by
  induction ps with
  | nil => simp [body]
  | cons p ps ih =>
    have hp : p.count c = 0 := List.count_eq_zero.mpr fun hm => h p (by simp) c hm hc
    cases ps with
    | nil => simp [body, hp]
    | cons q ps =>
      rw [body_cons, List.count_append, hp, List.count_cons, ih fun p' hp' => h p' (by simp [hp'])]
      by_cases hcc : c = ','
      · subst hcc
        simp
      · have : ¬ (',' == c) = true := by simpa using fun h => hcc h.symm
        simp [hcc, this]

theorem fromStr_spec {stod : List Char → Option R} (hs : Stops stod) {ps : List (List Char)} {tail : List Char} (hne : ps ≠ [])
    (hps : ∀ p ∈ ps, ∀ x ∈ p, x ∉ special) (ht : ∀ x ∈ tail, x ∉ special) :
    fromStr stod ps.length ('{' :: body ps ++ '}' :: tail) = ps.mapM (number stod) := by
  have htail : ∀ c ∈ special, tail.count c = 0 := fun c hc => List.count_eq_zero.mpr fun hm => ht c hm hc
  have hpos : 0 < ps.length := List.length_pos_iff.mpr hne
  have c1 : ('{' :: body ps ++ '}' :: tail).count '{' = 1 := by
    simp [List.count_append, count_body ps hps (c := '{') (by decide), htail '{' (by decide)]
  have c2 : ('{' :: body ps ++ '}' :: tail).count '}' = 1 := by
    simp [List.count_append, count_body ps hps (c := '}') (by decide), htail '}' (by decide)]
  have c3 : ('{' :: body ps ++ '}' :: tail).count ',' + 1 = ps.length := by
    simp [List.count_append, count_body ps hps (c := ',') (by decide), htail ',' (by decide)]
    omega
  rw [fromStr, if_neg (by rw [c1, c2, c3]; simp)]
  have hv := values_spec hs ps ['{'] tail hne (by simp) (by simp) hps
  rw [List.singleton_append] at hv
  split
  · rename_i h1
    obtain ⟨p, rfl⟩ := List.length_eq_one_iff.mp h1
    have hp := hps p (by simp)
    have hpb : '}' ∉ p := fun h => hp _ h (by simp [special])
    have hf : find '}' ('{' :: body [p] ++ '}' :: tail) 0 = some (p.length + 1) := by
      have := find_append (c := '}') ('{' :: p) tail (by simp [hpb]) 0 (Nat.zero_le _)
      rw [List.length_cons] at this
      exact this
    rw [hf, substr, if_neg (by simp)]
    simp only [bind, Except.bind, count]
    have e : ('{' :: body [p] ++ '}' :: tail).drop 1 = p ++ '}' :: tail := rfl
    rw [e, number_take hs (.inr rfl) hp (Nat.le_refl _)]
    simp only [List.mapM_cons, List.mapM_nil, bind, Except.bind, pure, Except.pure]
  · exact hv

theorem mapM_number {α : Type} {stod : List Char → Option R} {f : α → List Char} {r : α → R} (v : List α)
    (h : ∀ x ∈ v, stod (f x) = some (r x)) : (v.map f).mapM (number stod) = .ok (v.map r) := by
  induction v with
  | nil => rfl
  | cons x v ih =>
    rw [List.map_cons, List.mapM_cons, ih fun y hy => h y (by simp [hy]), number, h x (by simp)]
    rfl

theorem toStr_eq (print : R → List Char) (x : R) (v : List R) :
    toStr print (x :: v) = '{' :: body (print x :: v.map fun y => ' ' :: print y) ++ ['}'] := by
  have key : ∀ (v : List R) (p : List Char),
      List.intercalate [',', ' '] (p :: v.map print) = body (p :: v.map fun y => ' ' :: print y) := by
    intro v
    induction v with
    | nil => intro p; simp [body, List.intercalate]
    | cons y v ih =>
      intro p
      rw [List.map_cons, List.map_cons, body_cons]
      have : List.intercalate [',', ' '] (p :: print y :: v.map print) =
          p ++ [',', ' '] ++ List.intercalate [',', ' '] (print y :: v.map print) := by
        simp [List.intercalate, List.intersperse]
      rw [this, ih]
      have hb : body ((' ' :: print y) :: v.map fun y => ' ' :: print y) =
          ' ' :: body (print y :: v.map fun y => ' ' :: print y) := by
        cases v with
        | nil => rfl
        | cons z v => simp [body]
      rw [hb]
      simp
  rw [toStr, List.map_cons, key]

end Maliput.VectorText
