import Verif.Spec.Files
import Mathlib.Data.List.Induction
import Mathlib.Tactic.Set

set_option autoImplicit false

/-!
Paths and making directories.
-/
namespace Maliput.Files

open Spec

theorem split_ne_nil (sep : Char) (l : List Char) : split sep l ≠ [] := by
  induction l with
  | nil => simp [split]
  | cons c l ih =>
    rw [split]
    split
    · simp
    · split <;> simp

theorem split_append (sep : Char) (a b : List Char) : split sep (a ++ sep :: b) = split sep a ++ split sep b := by
  induction a with
  | nil => simp [split]
  | cons c a ih =>
    rw [List.cons_append, split, split, ih]
    split
    · simp
    · cases h : split sep a with
      | nil => exact absurd h (split_ne_nil _ _)
      | cons w ws => simp

theorem split_free (sep : Char) (l : List Char) (h : sep ∉ l) : split sep l = [l] := by
  induction l with
  | nil => rfl
  | cons c l ih =>
    rw [List.mem_cons, not_or] at h
    rw [split, if_neg (fun e => h.1 e.symm), ih h.2]

theorem names_append (a b : List Char) : names (a ++ '/' :: b) = names a ++ names b := by
  rw [names, split_append, List.filter_append]
  rfl

theorem names_nil : names [] = [] := rfl

theorem names_snoc (a : List Char) : names (a ++ ['/']) = names a := by
  rw [names_append, names_nil, List.append_nil]

theorem names_free (l : List Char) (h : '/' ∉ l) (hn : l ≠ []) : names l = [l] := by
  rw [names, split_free _ _ h]
  simp [hn]

/-- Text ends in a piece without a separator. -/
theorem last_piece (sep : Char) (l : List Char) : sep ∉ l ∨ ∃ a b, l = a ++ sep :: b ∧ sep ∉ b := by
  induction l with
  | nil => exact .inl (by simp)
  | cons c l ih =>
    rcases ih with h | ⟨a, b, rfl, hb⟩
    · by_cases hc : c = sep
      · subst hc
        exact .inr ⟨[], l, rfl, h⟩
      · exact .inl (by simp [h, Ne.symm hc])
    · exact .inr ⟨c :: a, b, rfl, hb⟩

theorem Spec.WellFormed.prefix_dir {s : FileSystem} (h : WellFormed s) {l l' : List (List Char)} (hl : l' <+: l) (hd : s.kind l = some .dir) :
    s.kind l' = some .dir := by
  obtain ⟨r, rfl⟩ := hl
  induction r using List.reverseRecOn with
  | nil => simpa using hd
  | append_singleton r n ih =>
    apply ih
    apply h.parent _ n
    rw [← List.append_assoc] at hd
    rw [hd]
    simp

theorem Spec.OnlyMade.refl (s : FileSystem) (l : List (List Char)) : OnlyMade s s l := ⟨rfl, rfl, fun _ => .inl rfl⟩

theorem Spec.OnlyMade.trans {s₁ s₂ s₃ : FileSystem} {l : List (List Char)} (h : OnlyMade s₁ s₂ l) (h' : OnlyMade s₂ s₃ l) :
    OnlyMade s₁ s₃ l := by
  refine ⟨h'.1.trans h.1, h'.2.1.trans h.2.1, fun l' => ?_⟩
  rcases h'.2.2 l' with e | ⟨e1, e2, e3, e4⟩
  · rw [e]
    exact h.2.2 l'
  · rcases h.2.2 l' with e | ⟨f1, f2, -, -⟩
    · rw [e] at e1
      rw [h.2.1] at e4
      exact .inr ⟨e1, e2, e3, e4⟩
    · rw [f2] at e1
      cases e1

theorem createDirectory_spec {s s' : FileSystem} {p : List Char} {b : Bool} (hw : WellFormed s)
    (h : createDirectory s p = (s', b)) :
    WellFormed s' ∧ (b = false → s' = s) ∧
    (b = true → ∃ l, locate s p = some l ∧ s.kind l = none ∧ s'.kind l = some .dir ∧ OnlyMade s s' l) := by
  rw [createDirectory] at h
  split at h
  · cases h
    exact ⟨hw, fun _ => rfl, fun h => by cases h⟩
  · rename_i l hl
    split at h
    · rename_i hc
      cases h
      obtain ⟨h1, h2, h3⟩ := hc
      refine ⟨⟨?_, ?_, ?_⟩, ⟨fun h => absurd h (by simp), fun _ => ⟨l, hl, h1, by simp [put], rfl, rfl, fun l' => ?_⟩⟩⟩
      · show (if [] = l then some Kind.dir else s.kind []) = some .dir
        rw [hw.root, ite_self]
      · show (if s.cwd = l then some Kind.dir else s.kind s.cwd) = some .dir
        rw [hw.cwd, ite_self]
      · intro l' n hn
        show (if l' = l then some Kind.dir else s.kind l') = some .dir
        split
        · rfl
        · change (if l' ++ [n] = l then some Kind.dir else s.kind (l' ++ [n])) ≠ none at hn
          split at hn
          · rename_i e
            rw [← e, List.dropLast_concat] at h2
            exact h2
          · exact hw.parent _ _ hn
      · show (if l' = l then some Kind.dir else s.kind l') = s.kind l' ∨ s.kind l' = none ∧
          (if l' = l then some Kind.dir else s.kind l') = some .dir ∧ l' <+: l ∧ s.allowed l' = true
        by_cases e : l' = l
        · subst e
          exact .inr ⟨h1, by simp, List.prefix_refl _, h3⟩
        · rw [if_neg e]
          exact .inl rfl
    · cases h
      exact ⟨hw, fun _ => rfl, fun h => by cases h⟩

theorem names_take (p : List Char) (i : Nat) (h : p[i]? = some '/') : names (p.take i) <+: names p := by
  have hi : i < p.length := (List.getElem?_eq_some_iff.mp h).1
  have e : p = p.take i ++ '/' :: p.drop (i + 1) := by
    have h2 : p[i] = '/' := (List.getElem?_eq_some_iff.mp h).2
    rw [← h2, ← List.drop_eq_getElem_cons hi, List.take_append_drop]
  conv => rhs; rw [e]
  rw [names_append]
  exact List.prefix_append _ _

theorem base_take (s : FileSystem) (p : List Char) (i : Nat) (h : 0 < i) : base s (p.take i) = base s p := by
  rw [base, base]
  congr 2
  cases p with
  | nil => simp
  | cons c p =>
    obtain ⟨j, rfl⟩ : ∃ j, i = j + 1 := ⟨i - 1, by omega⟩
    simp

theorem locate_take (s : FileSystem) (p : List Char) (i : Nat) (h : 2 ≤ i) (hi : p[i]? = some '/') :
    locate s (p.take i) = some (base s p ++ names (p.take i)) := by
  have hl : i < p.length := (List.getElem?_eq_some_iff.mp hi).1
  rw [locate, if_neg, base_take _ _ _ (by omega)]
  intro e
  have := congrArg List.length e
  rw [List.length_take, List.length_nil] at this
  omega

theorem base_congr {s s' : FileSystem} (h : s'.cwd = s.cwd) (p : List Char) : base s' p = base s p := by
  rw [base, base, h]

theorem createLoop_sound {p : List Char} {is : List Nat} (his : ∀ i ∈ is, 2 ≤ i ∧ p[i]? = some '/') (hp : p ≠ []) :
    ∀ {s s' : FileSystem} {b : Bool}, WellFormed s → createLoop p is s = (s', b) →
      WellFormed s' ∧ OnlyMade s s' (base s p ++ names p) ∧
      (b = true → s'.kind (base s p ++ names p) = some .dir) := by
  induction is with
  | nil =>
    intro s s' b hw h
    rw [createLoop] at h
    obtain ⟨h1, h2, h3⟩ := createDirectory_spec hw h
    refine ⟨h1, ?_, ?_⟩
    · cases b with
      | false => rw [h2 rfl]; exact OnlyMade.refl _ _
      | true =>
        obtain ⟨l, hl, -, -, ho⟩ := h3 rfl
        rw [locate, if_neg hp] at hl
        cases hl
        exact ho
    · intro hb
      obtain ⟨l, hl, -, hd, -⟩ := h3 hb
      rw [locate, if_neg hp] at hl
      cases hl
      exact hd
  | cons i is ih =>
    intro s s' b hw h
    obtain ⟨hi2, hi⟩ := his i (by simp)
    have his' := fun j hj => his j (List.mem_cons_of_mem _ hj)
    rw [createLoop] at h
    split at h
    · exact ih his' hw h
    · cases hc : createDirectory s (p.take i) with
      | mk t c =>
        rw [hc] at h
        obtain ⟨h1, h2, h3⟩ := createDirectory_spec hw hc
        cases c with
        | false =>
          cases h
          rw [h2 rfl]
          exact ⟨hw, OnlyMade.refl _ _, fun h => by cases h⟩
        | true =>
          obtain ⟨l, hl, -, -, ho⟩ := h3 rfl
          rw [locate_take s p i hi2 hi] at hl
          cases hl
          have ho' : OnlyMade s t (base s p ++ names p) := by
            refine ⟨ho.1, ho.2.1, fun l' => ?_⟩
            rcases ho.2.2 l' with e | ⟨e1, e2, e3, e4⟩
            · exact .inl e
            · exact .inr ⟨e1, e2, e3.trans (List.prefix_append_right_inj _ |>.mpr (names_take p i hi)), e4⟩
          obtain ⟨g1, g2, g3⟩ := ih his' h1 h
          rw [base_congr ho.1] at g2 g3
          exact ⟨g1, OnlyMade.trans ho' g2, g3⟩

theorem stops_spec {p : List Char} {i : Nat} (h : i ∈ stops p) : 2 ≤ i ∧ p[i]? = some '/' := by
  rw [stops, List.mem_filter, Bool.and_eq_true, decide_eq_true_eq, beq_iff_eq] at h
  exact h.2

theorem mem_stops {p : List Char} {i : Nat} (h : 2 ≤ i) (hi : p[i]? = some '/') : i ∈ stops p := by
  rw [stops, List.mem_filter, Bool.and_eq_true, decide_eq_true_eq, beq_iff_eq, List.mem_range]
  exact ⟨(List.getElem?_eq_some_iff.mp hi).1, h, hi⟩

theorem stops_sorted (p : List Char) : (stops p).Pairwise (· < ·) :=
  List.Pairwise.filter _ List.pairwise_lt_range

theorem createRecursive_sound {s s' : FileSystem} {p : List Char} {b : Bool} (hw : WellFormed s) (h : createRecursive s p = (s', b)) :
    WellFormed s' ∧ OnlyMade s s' (base s p ++ names p) ∧
      (b = true → p ≠ [] ∧ s'.kind (base s p ++ names p) = some .dir) := by
  rw [createRecursive] at h
  split at h
  · cases h
    exact ⟨hw, OnlyMade.refl _ _, fun h => by cases h⟩
  · rename_i hp
    obtain ⟨h1, h2, h3⟩ := createLoop_sound (fun i hi => stops_spec hi) hp hw h
    exact ⟨h1, h2, fun hb => ⟨hp, h3 hb⟩⟩

theorem made_eq {s s' : FileSystem} {l : List (List Char)} (hw : WellFormed s') (ho : OnlyMade s s' l) (hd : s'.kind l = some .dir) :
    s' = mkdirP s l := by
  obtain ⟨h1, h2, h3⟩ := ho
  cases s with
  | mk k c a =>
    cases s' with
    | mk k' c' a' =>
      cases h1
      cases h2
      rw [mkdirP]
      congr 1
      funext l'
      dsimp only at h3 hd ⊢
      split
      · rename_i hc
        exact WellFormed.prefix_dir hw hc.1 hd
      · rename_i hc
        rcases h3 l' with e | ⟨e1, -, e3, -⟩
        · exact e
        · exact absurd ⟨e3, e1⟩ hc

/-- All directories on the way to the slashes before a position are there. -/
def Ready (s : FileSystem) (p : List Char) (i : Nat) : Prop :=
  ∀ j, j < i → p[j]? = some '/' → s.kind (base s p ++ names (p.take j)) = some .dir

theorem parent_ready {s : FileSystem} {p : List Char} {i : Nat} (hw : WellFormed s) (hr : Ready s p i) (h0 : 0 < i)
    (hi : i ≤ p.length) :
    s.kind (base s p ++ names (p.take i)) = some .dir ∨
      s.kind (base s p ++ names (p.take i)).dropLast = some .dir := by
  have hbase : s.kind (base s p) = some .dir := by
    rw [base]
    split
    · exact hw.root
    · exact hw.cwd
  rcases last_piece '/' (p.take i) with h | ⟨a, b, e, hb⟩
  · right
    rw [names_free _ h (by
      intro e
      have := congrArg List.length e
      rw [List.length_take, List.length_nil] at this
      omega), List.dropLast_concat]
    exact hbase
  · have hlen := congrArg List.length e
    rw [List.length_take, List.length_append, List.length_cons, Nat.min_eq_left hi] at hlen
    have hj : a.length < i := by omega
    have hpa : p[a.length]? = some '/' := by
      have : (p.take i)[a.length]? = some '/' := by rw [e]; simp
      rw [List.getElem?_take_of_lt hj] at this
      exact this
    have hta : p.take a.length = a := by
      have : (p.take i).take a.length = a := by rw [e]; simp
      rwa [List.take_take, Nat.min_eq_left (by omega)] at this
    have hk := hr a.length hj hpa
    rw [hta] at hk
    rw [e, names_append]
    by_cases hbn : b = []
    · left
      rw [hbn, names_nil, List.append_nil]
      exact hk
    · right
      rw [names_free b hb hbn, ← List.append_assoc, List.dropLast_concat]
      exact hk

theorem createDirectory_ok {s : FileSystem} {p : List Char} {l : List (List Char)} (hl : locate s p = some l) (h1 : s.kind l = none)
    (h2 : s.kind l.dropLast = some .dir) (h3 : s.allowed l = true) : createDirectory s p = (put s l (some .dir), true) := by
  rw [createDirectory, hl]
  exact if_pos ⟨h1, h2, h3⟩

theorem createLoop_complete {p : List Char} (hp : p ≠ []) (hlast : p.getLast? ≠ some '/') :
    ∀ (is : List Nat) (s : FileSystem) (i : Nat), is.Pairwise (· < ·) → (∀ j ∈ is, 2 ≤ j ∧ p[j]? = some '/') →
      (∀ j, i ≤ j → p[j]? = some '/' → j ∈ is) → (∀ j ∈ is, i ≤ j) → WellFormed s → Ready s p i →
      (∀ l', l' <+: base s p ++ names p → s.kind l' ≠ some .file ∧ (s.kind l' = none → s.allowed l' = true)) →
      s.kind (base s p ++ names p) = none → (createLoop p is s).2 = true := by
  intro is
  induction is with
  | nil =>
    intro s i _ _ hall _ hw hr hposs hnone
    rw [createLoop]
    have hlen : 0 < p.length := List.length_pos_iff.mpr hp
    have hr' : Ready s p p.length := by
      intro j hj hpj
      by_cases h : j < i
      · exact hr j h hpj
      · exact absurd (hall j (by omega) hpj) (by simp)
    have := parent_ready hw hr' hlen (Nat.le_refl _)
    rw [List.take_length] at this
    have hl : locate s p = some (base s p ++ names p) := by rw [locate, if_neg hp]
    rcases this with h | h
    · rw [hnone] at h
      cases h
    · rw [createDirectory_ok hl hnone h ((hposs _ (List.prefix_refl _)).2 hnone)]
  | cons k is ih =>
    intro s i hsort his hall hge hw hr hposs hnone
    obtain ⟨hk2, hk⟩ := his k (by simp)
    have hkl : k < p.length := (List.getElem?_eq_some_iff.mp hk).1
    have hik := hge k (by simp)
    have hsort' := List.pairwise_cons.mp hsort
    have hrk : Ready s p k := by
      intro j hj hpj
      by_cases h : j < i
      · exact hr j h hpj
      · have := hall j (by omega) hpj
        rw [List.mem_cons] at this
        rcases this with e | e
        · omega
        · have := hsort'.1 j e
          omega
    have hlk := locate_take s p k hk2 hk
    have hprefix : base s p ++ names (p.take k) <+: base s p ++ names p :=
      (List.prefix_append_right_inj _).mpr (names_take p k hk)
    have hall' : ∀ j, k + 1 ≤ j → p[j]? = some '/' → j ∈ is := by
      intro j hj hpj
      have := hall j (by omega) hpj
      rw [List.mem_cons] at this
      rcases this with e | e
      · omega
      · exact e
    have hge' : ∀ j ∈ is, k + 1 ≤ j := fun j hj => hsort'.1 j hj
    have hnew : ∀ t : FileSystem, t.cwd = s.cwd → (∀ l', s.kind l' = some .dir → t.kind l' = some .dir) →
        t.kind (base s p ++ names (p.take k)) = some .dir → Ready t p (k + 1) := by
      intro t hc hle hkd j hj hpj
      rw [base_congr hc]
      by_cases h : j = k
      · subst h
        exact hkd
      · exact hle _ (hrk j (by omega) hpj)
    rw [createLoop]
    cases hex : exists' s (p.take k) with
    | true =>
      rw [if_pos rfl]
      refine ih s (k + 1) hsort'.2 (fun j hj => his j (by simp [hj])) hall' hge' hw (hnew s rfl (fun _ h => h) ?_) hposs hnone
      rw [exists', stat, hlk] at hex
      dsimp only at hex
      cases hkk : s.kind (base s p ++ names (p.take k)) with
      | none => rw [hkk] at hex; cases hex
      | some kd =>
        cases kd with
        | file => exact absurd hkk (hposs _ hprefix).1
        | dir => rfl
    | false =>
      rw [if_neg (by simp)]
      have hkn : s.kind (base s p ++ names (p.take k)) = none := by
        cases hkk : s.kind (base s p ++ names (p.take k)) with
        | none => rfl
        | some kd =>
          cases kd with
          | file => exact absurd hkk (hposs _ hprefix).1
          | dir =>
            rw [exists', stat, hlk] at hex
            dsimp only at hex
            rw [hkk] at hex
            cases hex
      have hpar := parent_ready hw hrk (by omega) (Nat.le_of_lt hkl)
      rw [hkn] at hpar
      have hpar := hpar.resolve_left (by simp)
      have hcd := createDirectory_ok hlk hkn hpar ((hposs _ hprefix).2 hkn)
      obtain ⟨hw', -, h3⟩ := createDirectory_spec hw hcd
      obtain ⟨l, hl, -, hd, ho⟩ := h3 rfl
      rw [hlk] at hl
      cases hl
      rw [hcd]
      dsimp only
      set t := put s (base s p ++ names (p.take k)) (some .dir) with ht
      have hb : base t p = base s p := base_congr ho.1 p
      refine ih t (k + 1) hsort'.2 (fun j hj => his j (by simp [hj])) hall' hge' hw' (hnew t ho.1 ?_ hd) ?_ ?_
      · intro l' hl'
        rcases ho.2.2 l' with e | ⟨e, -⟩
        · rw [e]; exact hl'
        · rw [hl'] at e; cases e
      · intro l' hl'
        rw [hb] at hl'
        rw [ho.2.1]
        rcases ho.2.2 l' with e | ⟨-, e, -, -⟩
        · rw [e]; exact hposs l' hl'
        · rw [e]; simp
      · rw [hb]
        show (if base s p ++ names p = base s p ++ names (p.take k) then some Kind.dir else s.kind (base s p ++ names p)) = none
        rw [if_neg, hnone]
        intro e
        have e := List.append_cancel_left e
        -- the last name comes after the slash
        have hsplit : p = p.take k ++ '/' :: p.drop (k + 1) := by
          have h2 : p[k] = '/' := (List.getElem?_eq_some_iff.mp hk).2
          rw [← h2, ← List.drop_eq_getElem_cons hkl, List.take_append_drop]
        have e2 : names (p.drop (k + 1)) = [] := by
          rw [hsplit, names_append] at e
          have := congrArg List.length e
          rw [List.length_append] at this
          have h0 : (List.take k (List.take k p ++ '/' :: List.drop (k + 1) p)) = p.take k := by
            rw [← hsplit]
          rw [h0] at this
          exact List.length_eq_zero_iff.mp (by omega)
        rcases last_piece '/' (p.drop (k + 1)) with h | ⟨a, b, eab, hbf⟩
        · by_cases hd0 : p.drop (k + 1) = []
          · apply hlast
            rw [hsplit, hd0]
            simp
          · rw [names_free _ h hd0] at e2
            cases e2
        · by_cases hb0 : b = []
          · apply hlast
            have he : p = (p.take k ++ '/' :: a) ++ ['/'] := by
              rw [eab, hb0] at hsplit
              rw [List.append_assoc]
              exact hsplit
            rw [he]
            exact List.getLast?_concat
          · rw [eab, names_append, names_free b hbf hb0] at e2
            simp at e2

end Maliput.Files
