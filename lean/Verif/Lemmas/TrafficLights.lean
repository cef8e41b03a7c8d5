import Verif.Lemmas.Map
import Verif.Lemmas.Monad
import Verif.Lemmas.FirstWithId
import Verif.Lemmas.Rules
import Verif.Spec.TrafficLights

set_option autoImplicit false

namespace Maliput.TrafficLights

open Maliput.TrafficLights.Spec Maliput.Rules

theorem all_isSome_iff {α : Type} (l : List (Option α)) :
    l.all Option.isSome = true ↔ l = (l.filterMap fun x => x).map some := by
  induction l with
  | nil => simp
  | cons x xs ih =>
    cases x with
    | none =>
      simp only [List.all_cons, Option.isSome_none, Bool.false_and, Bool.false_eq_true, false_iff]
      intro h
      have : (none : Option α) ∈ (List.filterMap (fun x => x) (none :: xs)).map some := by rw [← h]; simp
      simp at this
    | some a => simpa using ih

theorem filterMap_map_some {α : Type} (l : List α) : (l.map some).filterMap (fun x => x) = l := by
  induction l with
  | nil => rfl
  | cons a l ih => simp

theorem countP_one_iff {α : Type} (f : α → String) (l : List α) :
    (∀ b ∈ l, l.countP (fun b' => decide (f b = f b')) = 1) ↔ (l.map f).Nodup := by
  have h1 : ∀ b, l.countP (fun b' => decide (f b = f b')) = (l.map f).count (f b) := by
    intro b
    rw [List.count, List.countP_map]
    apply List.countP_congr
    intro x _
    by_cases e : f b = f x
    · simp [e]
    · have e' : f x ≠ f b := fun h => e h.symm
      simp [e, e']
  constructor
  · intro h
    rw [List.nodup_iff_count_le_one]
    intro a
    by_cases ha : a ∈ l.map f
    · obtain ⟨b, hb, rfl⟩ := List.mem_map.1 ha
      rw [← h1, h b hb]
    · rw [List.count_eq_zero_of_not_mem ha]; omega
  · intro h b hb
    rw [h1]
    exact List.count_eq_one_of_mem h (List.mem_map_of_mem hb)

theorem find?_id_iff {α : Type} {f : α → String} {l : List α} (h : (l.map f).Nodup) (id : String) (a : α) :
    l.find? (fun b => decide (f b = id)) = some a ↔ a ∈ l ∧ f a = id := by
  induction l with
  | nil => simp
  | cons x xs ih =>
    simp only [List.map_cons, List.nodup_cons] at h
    by_cases hx : f x = id
    · rw [List.find?_cons_of_pos (by simpa using hx)]
      constructor
      · intro e; obtain rfl := Option.some.inj e; exact ⟨by simp, hx⟩
      · rintro ⟨ha, he⟩
        rcases List.mem_cons.1 ha with rfl | ha
        · rfl
        · exact absurd (List.mem_map.2 ⟨a, ha, he.trans hx.symm⟩) h.1
    · rw [List.find?_cons_of_neg (by simpa using hx), ih h.2]
      constructor
      · rintro ⟨ha, he⟩; exact ⟨List.mem_cons_of_mem _ ha, he⟩
      · rintro ⟨ha, he⟩
        rcases List.mem_cons.1 ha with rfl | ha
        · exact absurd he hx
        · exact ⟨ha, he⟩

theorem groupMake_iff (id : String) (pose : Pose) (bulbs : List (Option Bulb)) (g : BulbGroup) :
    BulbGroup.make id pose bulbs = .ok g ↔
      g.id = id ∧ g.pose = pose ∧ bulbs = g.bulbs.map some ∧ g.bulbs ≠ [] ∧ (g.bulbs.map (·.id)).Nodup := by
  simp only [BulbGroup.make, bind_ok, throwUnless_ok, pure_ok, forM_ok, decide_eq_true_eq, exists_const,
    all_isSome_iff, countP_one_iff]
  constructor
  · rintro ⟨h0, h1, h2, rfl⟩
    refine ⟨rfl, rfl, h1, ?_, h2⟩
    intro h3
    simp only at h3
    rw [h3] at h1
    simp [h1] at h0
  · rintro ⟨rfl, rfl, h1, h2, h3⟩
    subst h1
    rw [filterMap_map_some]
    refine ⟨?_, rfl, h3, rfl⟩
    rw [List.length_map]
    exact List.length_pos_of_ne_nil h2

theorem lightMake_iff (id : String) (pose : Pose) (groups : List (Option BulbGroup)) (t : TrafficLight) :
    TrafficLight.make id pose groups = .ok t ↔
      t.id = id ∧ t.pose = pose ∧ groups = t.groups.map some ∧ (t.groups.map (·.id)).Nodup := by
  simp only [TrafficLight.make, bind_ok, throwUnless_ok, pure_ok, forM_ok, decide_eq_true_eq, exists_const,
    all_isSome_iff, countP_one_iff]
  constructor
  · rintro ⟨h1, h2, rfl⟩
    exact ⟨rfl, rfl, h1, h2⟩
  · rintro ⟨rfl, rfl, h1, h3⟩
    subst h1
    rw [filterMap_map_some]
    exact ⟨rfl, h3, rfl⟩

theorem Spec.BuiltGroup.nodup {g : BulbGroup} (h : BuiltGroup g) : (g.bulbs.map (·.id)).Nodup := by
  obtain ⟨⟨id, p, l, h⟩, -⟩ := h
  exact ((groupMake_iff _ _ _ _).1 h).2.2.2.2

theorem Spec.BuiltLight.nodup {t : TrafficLight} (h : BuiltLight t) : (t.groups.map (·.id)).Nodup := by
  obtain ⟨⟨id, p, l, h⟩, -⟩ := h
  exact ((lightMake_iff _ _ _ _).1 h).2.2.2

theorem run_eq (ops : List (Option TrafficLight)) :
    Book.run ops = ops.foldl (addTo TrafficLight.id) .empty := by
  unfold Book.run
  congr 1
  funext b o
  cases o <;> rfl

end Maliput.TrafficLights
