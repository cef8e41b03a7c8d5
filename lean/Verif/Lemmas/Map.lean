import Verif.Model.Map

set_option autoImplicit false

/-! Facts about the map contract. -/
namespace Maliput.Map

variable {κ α : Type} [DecidableEq κ]

theorem get?_eq_some {m : Map κ α} {k : κ} {v : α} : m.get? k = some v ↔ (k, v) ∈ m.entries := by
  unfold get?
  constructor
  · intro h
    rw [Option.map_eq_some_iff] at h
    obtain ⟨⟨k', v'⟩, h, rfl⟩ := h
    have h1 := List.find?_some h
    have h2 := List.mem_of_find?_eq_some h
    simp only [decide_eq_true_eq] at h1
    exact h1 ▸ h2
  · intro h
    have hs : (m.entries.find? (fun e => decide (e.1 = k))).isSome := by
      rw [List.find?_isSome]; exact ⟨_, h, by simp⟩
    obtain ⟨⟨k', v'⟩, h'⟩ := Option.isSome_iff_exists.1 hs
    have h1 := List.find?_some h'
    have h2 := List.mem_of_find?_eq_some h'
    simp only [decide_eq_true_eq] at h1
    subst h1
    rw [h']
    have := List.inj_on_of_nodup_map m.nodup h2 h rfl
    simp_all

theorem has_iff {m : Map κ α} {k : κ} : m.has k = true ↔ ∃ v, m.get? k = some v := by
  simp [has, Option.isSome_iff_exists]

theorem has_false {m : Map κ α} {k : κ} : m.has k = false ↔ m.get? k = none := by
  simp [has]

theorem mem_keys {m : Map κ α} {k : κ} : k ∈ m.keys ↔ ∃ v, m.get? k = some v := by
  simp only [keys, List.mem_map, get?_eq_some]
  constructor
  · rintro ⟨⟨a, b⟩, h, rfl⟩; exact ⟨b, h⟩
  · rintro ⟨v, h⟩; exact ⟨_, h, rfl⟩

theorem mem_keys_has {m : Map κ α} {k : κ} : k ∈ m.keys ↔ m.has k = true := by
  rw [mem_keys, has_iff]

@[simp] theorem get?_empty (k : κ) : (empty : Map κ α).get? k = none := rfl

theorem at!_ok {m : Map κ α} {k : κ} {v : α} : m.at! k = .ok v ↔ m.get? k = some v := by
  unfold at!; cases m.get? k <;> simp

theorem at!_error {m : Map κ α} {k : κ} {e : Err} : m.at! k = .error e ↔ e = .outOfRange ∧ m.get? k = none := by
  unfold at!; cases m.get? k <;> simp [eq_comm]

theorem emplace_new {m : Map κ α} {k : κ} (v : α) (h : m.get? k = none) :
    (m.emplace k v).2 = true ∧ ∀ k', (m.emplace k v).1.get? k' = if k' = k then some v else m.get? k' := by
  unfold emplace
  rw [dif_pos h]
  refine ⟨rfl, fun k' => ?_⟩
  split
  next hk => subst hk; rw [get?_eq_some]; simp
  next hk =>
    apply Option.ext
    intro w
    simp only [get?_eq_some, List.mem_append, List.mem_singleton, Prod.mk.injEq, or_iff_left_iff_imp]
    rintro ⟨rfl, -⟩
    exact absurd rfl hk

theorem emplace_old {m : Map κ α} {k : κ} {v : α} (h : m.get? k ≠ none) : m.emplace k v = (m, false) := by
  unfold emplace; rw [dif_neg h]

theorem emplace_flag {m : Map κ α} {k : κ} {v : α} : (m.emplace k v).2 = true ↔ m.get? k = none := by
  unfold emplace; split <;> simp_all

theorem emplace_entries {m : Map κ α} {k : κ} {v : α} (h : m.get? k = none) :
    (m.emplace k v).1.entries = m.entries ++ [(k, v)] := by
  unfold emplace; rw [dif_pos h]

theorem get?_emplace (m : Map κ α) (k k' : κ) (v : α) :
    (m.emplace k v).1.get? k' = if k' = k ∧ m.get? k = none then some v else m.get? k' := by
  by_cases h : m.get? k = none
  · rw [(emplace_new v h).2]; simp [h]
  · rw [emplace_old h]; simp [h]

theorem get?_erase (m : Map κ α) (k k' : κ) : (m.erase k).get? k' = if k' = k then none else m.get? k' := by
  apply Option.ext
  intro w
  rw [get?_eq_some]
  unfold erase
  simp only [List.mem_filter, decide_eq_true_eq]
  split
  next h => simp [h]
  next h => simp [h, get?_eq_some]

theorem get?_set (m : Map κ α) (k k' : κ) (v : α) : (m.set k v).get? k' = if k' = k then some v else m.get? k' := by
  unfold set
  rw [get?_emplace, get?_erase, get?_erase]
  simp only [if_true, and_true]
  split <;> rfl

theorem get?_filter (m : Map κ α) (f : α → Bool) (k : κ) : (m.filter f).get? k = (m.get? k).filter f := by
  apply Option.ext
  intro w
  rw [get?_eq_some, Option.filter_eq_some_iff, get?_eq_some]
  unfold filter
  simp

end Maliput.Map
