import Verif.Lemmas.PiecewiseSplines

set_option autoImplicit false
set_option linter.unusedSectionVars false

/-! Lemmas about concatenation, removal, slices and shifts. -/
namespace Maliput.Piecewise

open Maliput Poly Spec

variable {R : Type} [Field R] [LinearOrder R] [IsStrictOrderedRing R]

theorem evalPieces_map_sub (n : Nat) (t o : R) : ∀ (bs : List R) (qs : List (Polynomial R)),
    evalPieces n t (bs.map (· - o)) qs = evalPieces n (t + o) bs qs
  | [], qs => by cases qs <;> simp [evalPieces]
  | [_], qs => by cases qs <;> simp [evalPieces]
  | b0 :: b1 :: bs, [] => by simp [evalPieces]
  | b0 :: b1 :: bs, q :: qs => by
    have ih := evalPieces_map_sub n t o (b1 :: bs) qs
    simp only [List.map_cons] at ih ⊢
    simp only [evalPieces, ih, lt_sub_iff_add_lt, sub_sub_eq_add_sub]

/-- The last break. -/
theorem last_mem_le {b : R} {bs : List R} (hp : (b :: bs).Pairwise (· < ·)) : b ≤ (b :: bs).getLastD 0 := by
  rw [List.getLastD_eq_getLast?, List.getLast?_eq_getElem?, List.getElem?_eq_getElem (by simp)]
  dsimp only [Option.getD_some, List.length_cons]
  rcases Nat.eq_zero_or_pos bs.length with h | h
  · have : bs = [] := List.length_eq_zero_iff.1 h
    subst this; simp
  · have : (b :: bs)[0] < (b :: bs)[bs.length + 1 - 1] := List.pairwise_iff_getElem.1 hp _ _ _ _ (by omega)
    simpa using this.le

theorem evalPieces_append (n : Nat) (t : R) : ∀ (bs : List R) (ps : List (Polynomial R)) (cs : List R)
    (qs : List (Polynomial R)), bs.length = ps.length + 1 → ps ≠ [] → bs.Pairwise (· < ·) → qs ≠ [] →
    cs.length = qs.length + 1 → cs.headD 0 = bs.getLastD 0 →
    evalPieces n t (bs.dropLast ++ cs) (ps ++ qs) = if t < bs.getLastD 0 then evalPieces n t bs ps else evalPieces n t cs qs
  | [], _, _, _, hl, _, _, _, _, _ => by simp at hl
  | [_], ps, _, _, hl, hn, _, _, _, _ => by simp at hl; exact absurd hl hn
  | [b0, b1], ps, c :: cs, qs, hl, hn, hp, hq, hc, hh => by
    match ps, hl with
    | [p], _ =>
      have : c = b1 := by simpa using hh
      subst this
      simp [evalPieces, hq]
  | [b0, b1], ps, [], qs, hl, hn, hp, hq, hc, hh => by simp at hc
  | b0 :: b1 :: b2 :: bs, [], cs, qs, hl, hn, hp, hq, hc, hh => by simp at hl
  | b0 :: b1 :: b2 :: bs, [_], cs, qs, hl, hn, hp, hq, hc, hh => by simp at hl
  | b0 :: b1 :: b2 :: bs, p :: p' :: ps, cs, qs, hl, hn, hp, hq, hc, hh => by
    have ih := evalPieces_append n t (b1 :: b2 :: bs) (p' :: ps) cs qs (by simpa using hl) (by simp) hp.of_cons hq hc
      (by simpa using hh)
    have hle := last_mem_le hp.of_cons
    have e : (b0 :: b1 :: b2 :: bs).getLastD 0 = (b1 :: b2 :: bs).getLastD 0 := by simp
    have e' : (b1 :: b2 :: bs).dropLast ++ cs = b1 :: ((b2 :: bs).dropLast ++ cs) := by simp
    rw [e, List.dropLast_cons_cons, List.cons_append, List.cons_append, e', List.cons_append, evalPieces]
    simp only [List.cons_append, e'] at ih
    rw [ih]
    by_cases h : t < b1
    · rw [if_pos (.inr h), if_pos (h.trans_le hle)]
      unfold evalPieces
      rw [if_pos (.inr h)]
    · rw [if_neg (by simp [not_lt.1 h])]
      conv_rhs => rw [evalPieces]
      rw [if_neg (by simp [not_lt.1 h] : ¬(p' :: ps = [] ∨ t < b1))]

/-- The value before the last break of the first `k + 1` ones only depends on them. -/
theorem evalPieces_take (n : Nat) (t : R) : ∀ (k : Nat) (bs : List R) (qs : List (Polynomial R)),
    0 < k → ∀ (hk : k ≤ qs.length) (hl : bs.length = qs.length + 1), bs.Pairwise (· < ·) →
    (t < bs[k]'(by omega) ∨ k = qs.length) →
    evalPieces n t (bs.take (k + 1)) (qs.take k) = evalPieces n t bs qs
  | 0, _, _, h, _, _, _, _ => absurd h (by omega)
  | k + 1, bs, qs, _, hk, hl, hp, ht => by
    match bs, qs, hl with
    | b0 :: b1 :: bs, q :: qs, hl =>
      cases k with
      | zero =>
        simp only [List.take_succ_cons, List.take_zero, evalPieces, true_or, if_true]
        rw [if_pos]
        rcases ht with h | h
        · exact .inr (by simpa using h)
        · left
          simp only [List.length_cons] at h
          exact List.length_eq_zero_iff.1 (by omega)
      | succ k =>
        match qs with
        | [] => simp at hk
        | q' :: qs =>
          have ih := evalPieces_take n t (k + 1) (b1 :: bs) (q' :: qs) (by omega) (by simpa using hk) (by simpa using hl)
            hp.of_cons (by simpa using ht)
          simp only [List.take_succ_cons] at ih ⊢
          conv_lhs => rw [evalPieces]
          conv_rhs => rw [evalPieces]
          rw [ih]
          simp
    | [_], [], hl => simp at hk

theorem evalPieces_drop (n : Nat) (t : R) : ∀ (k : Nat) (bs : List R) (qs : List (Polynomial R)),
    ∀ (hk : k < qs.length) (hl : bs.length = qs.length + 1), bs.Pairwise (· < ·) → bs[k]'(by omega) ≤ t →
    evalPieces n t (bs.drop k) (qs.drop k) = evalPieces n t bs qs
  | 0, _, _, _, _, _, _ => by simp
  | k + 1, bs, qs, hk, hl, hp, ht => by
    match bs, qs, hl with
    | b0 :: b1 :: bs, q :: qs, hl =>
      have hb : b1 ≤ (b1 :: bs)[k]'(by simp at hl hk ⊢; omega) := by
        rcases Nat.eq_zero_or_pos k with h | h
        · subst h; simp
        · have := List.pairwise_iff_getElem.1 hp.of_cons 0 k (by simp) (by simp at hl hk ⊢; omega) h
          simpa using this.le
      have ht' : (b1 :: bs)[k]'(by simp at hl hk ⊢; omega) ≤ t := by simpa using ht
      rw [List.drop_succ_cons, List.drop_succ_cons, evalPieces_drop n t k (b1 :: bs) qs (by simpa using hk)
        (by simpa using hl) hp.of_cons ht']
      conv_rhs => rw [evalPieces]
      rw [if_neg]
      rintro (h | h)
      · subst h; simp at hk
      · exact absurd (hb.trans ht') (not_le.2 h)
    | [_], q :: qs, hl => simp at hl
    | [], q :: qs, hl => simp at hl

theorem valid_concatenate {p q : PP R} (hp : Valid p) (hq : Valid q) :
    Valid ⟨p.breaks.dropLast ++ q.breaks.map (· - (first q - last p)), p.polynomials ++ q.polynomials⟩ := by
  have a := hp.lengths; have b := hp.segments; have c := hq.lengths; have d := hq.segments
  refine ⟨?_, ?_, ?_, ?_⟩
  · simp; omega
  · simp; omega
  · refine List.pairwise_append.2 ⟨hp.increasing.sublist (List.dropLast_sublist _), ?_, ?_⟩
    · refine List.Pairwise.map _ (fun x y h => ?_) hq.increasing
      linarith
    · intro x hx y hy
      obtain ⟨z, hz, rfl⟩ := List.mem_map.1 hy
      have h1 : x < last p := by
        rw [hp.last_eq]
        obtain ⟨i, hi, rfl⟩ := List.mem_iff_getElem.1 hx
        simp only [List.length_dropLast] at hi
        rw [List.getElem_dropLast]
        exact List.pairwise_iff_getElem.1 hp.increasing _ _ _ _ (by omega)
      have h2 : first q ≤ z := by
        rw [hq.first_eq]
        obtain ⟨i, hi, rfl⟩ := List.mem_iff_getElem.1 hz
        rcases Nat.eq_zero_or_pos i with h | h
        · subst h; exact le_refl _
        · exact (List.pairwise_iff_getElem.1 hq.increasing _ _ _ _ h).le
      linarith
  · intro r hr
    exact (List.mem_append.1 hr).elim (hp.univariate r) (hq.univariate r)

theorem concatenate_eq {p q : PP R} (hp : Valid p) (hq : Valid q) :
    p.concatenate q = if |first q - last p| < max |last p| 1 * epsilonTime then
      .ok ⟨p.breaks.dropLast ++ q.breaks.map (· - (first q - last p)), p.polynomials ++ q.polynomials⟩
    else .error .throws := by
  unfold PP.concatenate
  rw [if_pos (by intro h; have := hp.segments; rw [h] at this; simp at this), hq.startTime, hp.endTime]
  unfold throwUnless
  by_cases h : |first q - last p| < max |last p| 1 * epsilonTime
  · simp [bind, Except.bind, pure, Except.pure, h]
  · simp [bind, Except.bind, h]

theorem concatenate_bounds {p q : PP R} (hp : Valid p) (hq : Valid q) :
    let r : PP R := ⟨p.breaks.dropLast ++ q.breaks.map (· - (first q - last p)), p.polynomials ++ q.polynomials⟩
    first r = first p ∧ last r = last q - (first q - last p) := by
  have a := hp.lengths; have b := hp.segments; have c := hq.lengths; have d := hq.segments
  intro r
  have hr : Valid r := valid_concatenate hp hq
  constructor
  · show (p.breaks.dropLast ++ _).headD 0 = p.breaks.headD 0
    match p.breaks, a with
    | b0 :: b1 :: bs, _ => simp
    | [_], a => simp at a; rw [a] at b; simp at b
  · show (p.breaks.dropLast ++ q.breaks.map _).getLastD 0 = q.breaks.getLastD 0 - _
    have hne : q.breaks ≠ [] := by intro h; rw [h] at c; simp at c
    rw [List.getLastD_eq_getLast?, List.getLast?_append_of_ne_nil _ (by simpa using hne), List.getLast?_map,
      List.getLastD_eq_getLast?, List.getLast?_eq_some_getLast hne]
    rfl

theorem concatenate_value {p q : PP R} (hp : Valid p) (hq : Valid q) (n : Nat) (t : R) :
    evalPieces n t (p.breaks.dropLast ++ q.breaks.map (· - (first q - last p))) (p.polynomials ++ q.polynomials) =
      if t < last p then evalPieces n t p.breaks p.polynomials
      else evalPieces n (t + (first q - last p)) q.breaks q.polynomials := by
  have b := hp.segments; have d := hq.segments
  rw [evalPieces_append n t _ _ _ _ hp.lengths (by intro h; rw [h] at b; simp at b) hp.increasing
    (by intro h; rw [h] at d; simp at d) (by simpa using hq.lengths) ?_, evalPieces_map_sub]
  · rfl
  · show _ = last p
    have := hq.first_eq
    have hpos := hq.pos
    match hb : q.breaks, hpos with
    | c :: cs, _ =>
      have e : first q = c := by unfold first; rw [hb]; rfl
      simp [e]

end Maliput.Piecewise
