import Verif.Lemmas.Map
import Verif.Lemmas.Monad
import Verif.Lemmas.Rules
import Verif.Model.DeprecatedRules

set_option autoImplicit false

namespace Maliput.Rules

theorem indexStates_ok {S : Type} (idOf : S → String) (l : List S) (m m' : Map String S) :
    indexStates idOf m l = .ok m' ↔
      (l.map idOf).Nodup ∧ (∀ s ∈ l, m.get? (idOf s) = none) ∧
        m'.entries = m.entries ++ l.map fun s => (idOf s, s) := by
  induction l generalizing m with
  | nil =>
    simp only [indexStates, Except.ok.injEq, List.map_nil, List.nodup_nil, List.not_mem_nil, false_implies,
      implies_true, List.append_nil, true_and]
    constructor
    · rintro rfl; rfl
    · intro h; cases m; cases m'; simp_all
  | cons x xs ih =>
    rw [indexStates]
    change (if (m.emplace (idOf x) x).2 = true then indexStates idOf (m.emplace (idOf x) x).1 xs else _) = _ ↔ _
    by_cases hx : m.get? (idOf x) = none
    · rw [(Map.emplace_new x hx).1]
      simp only [if_true, ih, List.map_cons, List.nodup_cons, List.forall_mem_cons, hx, true_and,
        Map.emplace_entries hx, Map.get?_emplace, List.append_assoc, List.cons_append, List.nil_append]
      constructor
      · rintro ⟨h1, h2, h3⟩
        refine ⟨⟨?_, h1⟩, ?_, h3⟩
        · intro hm
          obtain ⟨y, hy, he⟩ := List.mem_map.1 hm
          have := h2 y hy
          rw [if_pos ⟨he, trivial⟩] at this
          cases this
        · intro s hs
          have := h2 s hs
          split at this
          · cases this
          · exact this
      · rintro ⟨⟨h0, h1⟩, h2, h3⟩
        refine ⟨h1, ?_, h3⟩
        intro s hs
        rw [if_neg]
        · exact h2 s hs
        · rintro ⟨he, -⟩
          exact h0 (he ▸ List.mem_map_of_mem hs)
    · rw [Map.emplace_old hx]
      simp only [Bool.false_eq_true, if_false, reduceCtorEq, List.forall_mem_cons, hx, false_and, and_false]

theorem indexed_get {S : Type} {idOf : S → String} {l : List S} {m : Map String S}
    (h : indexStates idOf .empty l = .ok m) (k : String) (s : S) :
    m.get? k = some s ↔ s ∈ l ∧ idOf s = k := by
  obtain ⟨-, -, h3⟩ := (indexStates_ok _ _ _ _).1 h
  rw [Map.get?_eq_some, h3]
  simp only [Map.empty, List.nil_append, List.mem_map, Prod.mk.injEq]
  constructor
  · rintro ⟨a, ha, rfl, rfl⟩; exact ⟨ha, rfl⟩
  · rintro ⟨h, rfl⟩; exact ⟨s, h, rfl, rfl⟩

theorem indexed_exists {S : Type} {idOf : S → String} {l : List S} (h : (l.map idOf).Nodup) :
    ∃ m, indexStates idOf .empty l = .ok m := by
  refine ⟨⟨l.map fun s => (idOf s, s), ?_⟩, (indexStates_ok _ _ _ _).2 ⟨h, fun _ _ => rfl, rfl⟩⟩
  simpa [List.map_map, Function.comp_def] using h

theorem count_one_iff (l : List String) :
    (∀ x ∈ l, l.countP (fun w => decide (w = x)) = 1) ↔ l.Nodup := by
  have h1 : ∀ x, l.countP (fun w => decide (w = x)) = l.count x := by
    intro x
    rw [List.count]
    apply List.countP_congr
    simp
  simp only [h1]
  constructor
  · intro h
    rw [List.nodup_iff_count_le_one]
    intro a
    by_cases ha : a ∈ l
    · rw [h a ha]
    · rw [List.count_eq_zero_of_not_mem ha]; omega
  · intro h x hx
    exact List.count_eq_one_of_mem h hx

theorem staticState_iff {S : Type} {idOf : S → String} {l : List S} {m : Map String S}
    (h : indexStates idOf .empty l = .ok m) (s : S) : staticState m = .ok s ↔ l = [s] := by
  obtain ⟨-, -, h3⟩ := (indexStates_ok _ _ _ _).1 h
  simp only [Map.empty, List.nil_append] at h3
  simp only [staticState, bind_ok, throwUnless_ok, decide_eq_true_eq, Map.size, h3, List.length_map, exists_const]
  rcases l with _ | ⟨x, _ | ⟨y, l⟩⟩
  · simp
  · simp [pure, Except.pure]
  · simp

end Maliput.Rules
