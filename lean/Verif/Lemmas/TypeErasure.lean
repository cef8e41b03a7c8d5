import Verif.Spec.TypeErasure
import Verif.Lemmas.Monad
import Verif.Lemmas.Hash

set_option autoImplicit false

namespace Maliput.TypeErasure
open Spec

/-! ### Reading the text of a function -/

theorem skip_other (n : Nat) {c : Char} (h : c ≠ '=') (rest : List Char) :
    skipToArgument n (c :: rest) = skipToArgument n rest := by
  cases n <;> cases rest <;> simp [skipToArgument, h]

theorem skip_zero {head : List Char} (h : '=' ∉ head) (rest : List Char) :
    skipToArgument 0 (head ++ '=' :: ' ' :: rest) = .ok rest := by
  induction head with
  | nil => simp [skipToArgument]
  | cons c head ih =>
    rw [List.mem_cons, not_or] at h
    rw [List.cons_append, skip_other _ (Ne.symm h.1), ih h.2]

theorem skip_one {head head' : List Char} (h : '=' ∉ head) (h' : '=' ∉ head') (rest : List Char) :
    skipToArgument 1 (head ++ '=' :: ' ' :: (head' ++ '=' :: ' ' :: rest)) = .ok rest := by
  induction head with
  | nil =>
    rw [List.nil_append, skipToArgument, if_pos rfl]
    exact skip_zero h' rest
  | cons c head ih =>
    rw [List.mem_cons, not_or] at h
    rw [List.cons_append, skip_other _ (Ne.symm h.1), ih h.2]

theorem skipCast_ok {x : List Char} (h : ')' ∉ x) (rest : List Char) : skipCast (x ++ ')' :: rest) = .ok rest := by
  induction x with
  | nil => simp [skipCast]
  | cons c x ih =>
    rw [List.mem_cons, not_or] at h
    rw [List.cons_append, skipCast, if_neg (Ne.symm h.1), ih h.2]

theorem nameChar_ne {c : Char} (h : NameChar c) :
    c ≠ ';' ∧ c ≠ ']' ∧ c ≠ '<' ∧ c ≠ '>' ∧ c ≠ '(' ∧ c ≠ ',' ∧ c ≠ '=' ∧ c ≠ '{' := by
  have := h.2
  simpa only [List.mem_cons, List.not_mem_nil, or_false, not_or] using this

theorem not_clang {c : Char} (h : c ≠ '(') (rest : List Char) : clangSpelling.isPrefixOf (c :: rest) = false := by
  have : clangSpelling = '(' :: "anonymous namespace)".toList := by decide
  rw [this, List.isPrefixOf, beq_eq_false_iff_ne.2 (Ne.symm h), Bool.false_and]

theorem not_unnamed {c : Char} (h : c ≠ '<') (rest : List Char) : unnamedSpelling.isPrefixOf (c :: rest) = false := by
  have : unnamedSpelling = '<' :: "unnamed>".toList := by decide
  rw [this, List.isPrefixOf, beq_eq_false_iff_ne.2 (Ne.symm h), Bool.false_and]

/-- A character that is not looked for is added to the hash. -/
theorem scan_char {nested : Bool} {c : Char} (h1 : c ≠ ';') (h2 : c ≠ ']') (h3 : c ≠ '<') (h4 : c ≠ '(')
    (rest : List Char) {r : List Char × Bool} (hr : scan nested 0 rest = .ok r) :
    scan nested 0 (c :: rest) = .ok (c :: r.1, r.2) := by
  rw [scan, if_neg (by simp [h1, h2]), not_clang h4, not_unnamed h3, if_neg (by simp), if_neg (by simp), if_neg h3,
    if_neg h4, hr]
  rfl

theorem scan_chars {nested : Bool} {w : List Char} (h : ∀ c ∈ w, c ≠ ';' ∧ c ≠ ']' ∧ c ≠ '<' ∧ c ≠ '(')
    (rest : List Char) {r : List Char × Bool} (hr : scan nested 0 rest = .ok r) :
    scan nested 0 (w ++ rest) = .ok (w ++ r.1, r.2) := by
  induction w with
  | nil => exact hr
  | cons c w ih =>
    obtain ⟨h1, h2, h3, h4⟩ := h c (by simp)
    exact scan_char h1 h2 h3 h4 _ (ih fun d hd => h d (by simp [hd]))

theorem scan_skip (nested : Bool) (w rest : List Char) : scan nested w.length (w ++ rest) = scan nested 0 rest := by
  induction w with
  | nil => rfl
  | cons c w ih => exact ih

theorem isPrefixOf_append (a b : List Char) : a.isPrefixOf (a ++ b) = true := by
  rw [List.isPrefixOf_iff_prefix]
  exact List.prefix_append a b

/-- Every spelling of an anonymous namespace is added as the same letters. -/
theorem scan_anonymous {nested : Bool} {a : List Char}
    (ha : a ∈ ["(anonymous namespace)".toList, "{anonymous}".toList, "<unnamed>".toList])
    (rest : List Char) {r : List Char × Bool} (hr : scan nested 0 rest = .ok r) :
    scan nested 0 (a ++ rest) = .ok ("{anonymous}".toList ++ r.1, r.2) := by
  simp only [List.mem_cons, List.not_mem_nil, or_false] at ha
  rcases ha with rfl | rfl | rfl
  · have hp := isPrefixOf_append clangSpelling rest
    have hs := scan_skip nested "anonymous namespace)".toList rest
    rw [show "(anonymous namespace)".toList = '(' :: "anonymous namespace)".toList by decide, List.cons_append, scan,
      if_neg (by decide), show ('(' :: ("anonymous namespace)".toList ++ rest)) = clangSpelling ++ rest by
        rw [← List.cons_append]; congr 1, if_pos hp,
      show clangSpelling.length - 1 = "anonymous namespace)".toList.length by decide, hs, hr]
    rfl
  · exact scan_chars (by decide) rest hr
  · have hp := isPrefixOf_append unnamedSpelling rest
    have hs := scan_skip nested "unnamed>".toList rest
    rw [show "<unnamed>".toList = '<' :: "unnamed>".toList by decide, List.cons_append, scan,
      if_neg (by decide), not_clang (by decide), if_neg (by simp),
      show ('<' :: ("unnamed>".toList ++ rest)) = unnamedSpelling ++ rest by
        rw [← List.cons_append]; congr 1, if_pos hp,
      show unnamedSpelling.length - 1 = "unnamed>".toList.length by decide, hs, hr]
    rfl

theorem letters_anonymous (unit : Nat) (n : List Token) (r : List Char) :
    letters (.anonymous unit :: n) ++ r = "{anonymous}".toList ++ (letters n ++ r) :=
  List.append_assoc _ _ _

theorem scan_name {nested : Bool} {n : List Token} {w : List Char} (hs : Spells n w)
    (hn : ∀ c, Token.char c ∈ n → NameChar c) (rest : List Char) {r : List Char × Bool}
    (hr : scan nested 0 rest = .ok r) : scan nested 0 (w ++ rest) = .ok (letters n ++ r.1, r.2) := by
  induction hs with
  | nil => exact hr
  | @char c n w _ ih =>
    obtain ⟨h1, h2, h3, -, h4, -⟩ := nameChar_ne (hn c (by simp))
    have := scan_char h1 h2 h3 h4 _ (ih fun d hd => hn d (by simp [hd]))
    exact this
  | @anonymous unit a n w ha _ ih =>
    have h := scan_anonymous ha _ (ih fun d hd => hn d (List.mem_cons_of_mem _ hd))
    rw [List.append_assoc a w rest, h, letters_anonymous]

theorem scan_stop (nested : Bool) {tail : List Char} (h : Stop tail) : scan nested 0 tail = .ok ([], true) := by
  obtain ⟨rest, rfl | rfl⟩ := h <;> rw [scan, if_pos (by simp)]

theorem scan_nested (nested : Bool) {rest : List Char} (h : rest.head? ≠ some 'u') :
    scan nested 0 ('<' :: rest) = .ok ([], nested) := by
  have : unnamedSpelling.isPrefixOf ('<' :: rest) = false := by
    rw [show unnamedSpelling = '<' :: 'u' :: "nnamed>".toList by decide]
    cases rest with
    | nil => simp [List.isPrefixOf]
    | cons d rest =>
      have hd : 'u' ≠ d := by
        rintro rfl
        exact h rfl
      simp [List.isPrefixOf, hd]
  rw [scan, if_neg (by decide), not_clang (by decide), if_neg (by simp), this, if_neg (by simp), if_pos rfl]

theorem hash_type {c : Compiler} (hc : Conforming c) (t : CType) (nested : Bool) (hi : IsInstance t → nested = true)
    (hn : ∀ d, Token.char d ∈ t.name → NameChar d) :
    hashArgument (c.typeText t) 0 nested false = .ok (letters t.name, true) := by
  obtain ⟨head, w, tail, h1, h2, h3, h4⟩ := hc.type t
  rw [hashArgument, h3, skip_zero h1]
  simp only [bind, Except.bind, Bool.false_and, Bool.false_eq_true, if_false]
  have : scan nested 0 tail = .ok ([], true) := by
    rcases h4 with h4 | ⟨h4, rest, rfl, h5⟩
    · exact scan_stop _ h4
    · rw [scan_nested _ h5, hi h4]
  rw [scan_name h2 hn tail this, List.append_nil]

theorem hash_value {c : Compiler} (hc : Conforming c) (t : CType) {v : List Char} (hv : ValueOk v) :
    hashArgument (c.valueText t v) 1 false true = .ok (v, true) := by
  obtain ⟨head, head', cast, tail, h1, h2, h3, h4, h5⟩ := hc.value t v
  rw [hashArgument, h5, skip_one h1 h2]
  simp only [bind, Except.bind, Bool.true_and]
  have hs : scan false 0 (v ++ tail) = .ok (v, true) := by
    have := scan_chars (nested := false) (w := v) (fun c hc => by
      obtain ⟨a, b, d, -, e, -⟩ := nameChar_ne (hv c hc)
      exact ⟨a, b, d, e⟩) tail (scan_stop false h4)
    rwa [List.append_nil] at this
  rcases h3 with rfl | ⟨x, hx, rfl⟩
  · rw [List.nil_append]
    have : ((v ++ tail).head? == some '(') = false := by
      rw [beq_eq_false_iff_ne]
      cases v with
      | nil => obtain ⟨rest, rfl | rfl⟩ := h4 <;> simp
      | cons d v =>
        have := (nameChar_ne (hv d (by simp))).2.2.2.2.1
        simpa using this
    rw [this]
    simpa using hs
  · have h6 : ('(' :: x ++ [')'] ++ v ++ tail).head? == some '(' := by simp
    rw [h6, if_pos rfl]
    have h7 := skipCast_ok (x := '(' :: x) (rest := v ++ tail) (by
      rw [List.mem_cons, not_or]
      exact ⟨by decide, hx⟩)
    rw [show '(' :: x ++ [')'] ++ v ++ tail = '(' :: x ++ ')' :: (v ++ tail) by simp, h7]
    exact hs

theorem calcInts_ok {c : Compiler} (hc : Conforming c) :
    ∀ ns, (∀ x ∈ ns, ValueOk x) → calcInts c ns = .ok (commas (ns.map ("int=".toList ++ ·)), true) := by
  intro ns
  induction ns with
  | nil => intro _; rfl
  | cons n ns ih =>
    intro h
    rw [calcInts, hash_value hc _ (h n (by simp))]
    simp only [bind, Except.bind]
    cases ns with
    | nil => rfl
    | cons m ns =>
      rw [if_neg (by simp)]
      simp only [if_true]
      rw [ih fun x hx => h x (by simp [hx])]
      simp only [pure, Except.pure, List.map_cons, commas, List.append_assoc]

mutual
theorem calcType_ok {c : Compiler} (hc : Conforming c) : ∀ t, WellNamed t → calcType c t = .ok (text t, true)
  | .plain n, h => by
    rw [calcType, text]
    exact hash_type hc (.plain n) false (fun h => h.elim) h.2
  | .template n args, h => by
    have h1 := hash_type hc (.template n args) true (fun _ => rfl) h.1.2
    dsimp only [CType.name] at h1
    rw [calcType, h1]
    simp only [bind, Except.bind, if_true]
    rw [calcPack_ok hc args h.2]
    simp only [pure, Except.pure, text]
  | .constant n u v, h => by
    have h1 := hash_type hc (.constant n u v) true (fun _ => rfl) h.1.2
    dsimp only [CType.name] at h1
    rw [calcType, h1]
    simp only [bind, Except.bind]
    rw [calcType_ok hc u h.2.1]
    simp only [if_true]
    rw [hash_value hc u h.2.2]
    simp only [pure, Except.pure, text]
  | .matrix n u k ks, h => by
    have h1 := hash_type hc (.matrix n u k ks) true (fun _ => rfl) h.1.2
    dsimp only [CType.name] at h1
    rw [calcType, h1]
    simp only [bind, Except.bind, if_true]
    rw [calcType_ok hc u h.2.1]
    simp only [if_true]
    rw [calcInts_ok hc (k :: ks) (by
      intro x hx
      rcases List.mem_cons.1 hx with rfl | hx
      exacts [h.2.2.1, h.2.2.2 x hx])]
    simp only [pure, Except.pure, text]
theorem calcPack_ok {c : Compiler} (hc : Conforming c) :
    ∀ p, WellNamedPack p → calcPack c p = .ok (commas (texts p), true)
  | .nil, _ => rfl
  | .cons a .nil, h => by
    rw [calcPack, calcType_ok hc a h.1]
    rfl
  | .cons a (.cons b r), h => by
    rw [calcPack, calcType_ok hc a h.1]
    simp only [bind, Except.bind, if_true]
    rw [calcPack_ok hc (.cons b r) h.2]
    simp only [pure, Except.pure, texts, commas]
end

end Maliput.TypeErasure
