import Mathlib.Data.List.Nodup
import Verif.Model.Basic

set_option autoImplicit false

/-!
Contract of `std::map` and `std::unordered_map`: a finite map with unique keys.  The entries are kept
in a list; the iteration order of `std::unordered_map` is unspecified in C++, so that the theorems
about code iterating over one must not depend on the order (they hold for every list).
-/
namespace Maliput

/-- A finite map with unique keys. -/
structure Map (κ α : Type) where
  entries : List (κ × α)
  nodup : (entries.map (·.1)).Nodup

instance {κ α : Type} [DecidableEq κ] [DecidableEq α] : DecidableEq (Map κ α) := fun a b =>
  if h : a.entries = b.entries then isTrue (by cases a; cases b; simp_all)
  else isFalse (by intro h'; exact h (by rw [h']))

namespace Map

variable {κ α : Type} [DecidableEq κ]

/-- The empty map. -/
def empty : Map κ α := ⟨[], by simp⟩

/-- The value `find(k)` points at, if any. -/
def get? (m : Map κ α) (k : κ) : Option α := (m.entries.find? (fun e => decide (e.1 = k))).map (·.2)

/-- `find(k) != end()`, `count(k) == 1`. -/
def has (m : Map κ α) (k : κ) : Bool := (m.get? k).isSome

/-- `at(k)`: throws `std::out_of_range` if there is no such key. -/
def at! (m : Map κ α) (k : κ) : Except Err α :=
  match m.get? k with
  | some v => .ok v
  | none => .error .outOfRange

theorem get?_eq_none {m : Map κ α} {k : κ} : m.get? k = none ↔ k ∉ m.entries.map (·.1) := by
  simp only [get?, Option.map_eq_none_iff, List.find?_eq_none, List.mem_map, not_exists, not_and,
    decide_eq_true_eq]

/-- `emplace(k, v)` (also `insert`): inserts only if the key is new; the returned flag is `.second`. -/
def emplace (m : Map κ α) (k : κ) (v : α) : Map κ α × Bool :=
  if h : m.get? k = none then
    (⟨m.entries ++ [(k, v)], by
      have := get?_eq_none.1 h
      simp only [List.map_append, List.map_cons, List.map_nil]
      exact List.nodup_append.2 ⟨m.nodup, by simp, by
        rintro a ha b hb rfl
        simp only [List.mem_singleton] at hb
        exact this (hb ▸ ha)⟩⟩, true)
  else (m, false)

/-- `erase(k)`; the number of erased elements is 1 exactly if `m.has k`. -/
def erase (m : Map κ α) (k : κ) : Map κ α :=
  ⟨m.entries.filter (fun e => decide (e.1 ≠ k)), m.nodup.sublist (List.filter_sublist.map _)⟩

/-- `m[k] = v` / `m.at(k) = v`: replaces or inserts. -/
def set (m : Map κ α) (k : κ) (v : α) : Map κ α := ((m.erase k).emplace k v).1

/-- The elements for whose value `f` holds, in a new map. -/
def filter (m : Map κ α) (f : α → Bool) : Map κ α :=
  ⟨m.entries.filter (fun e => f e.2), m.nodup.sublist (List.filter_sublist.map _)⟩

/-- `size()`. -/
def size (m : Map κ α) : Nat := m.entries.length

/-- The keys, in iteration order. -/
def keys (m : Map κ α) : List κ := m.entries.map (·.1)

/-- The map with the given entries, the first one winning for a repeated key (successive `emplace`s). -/
def ofList (l : List (κ × α)) : Map κ α := l.foldl (fun m e => (m.emplace e.1 e.2).1) empty

end Map

/-- State left by a method call, and how the call ended. -/
abbrev Outcome (σ : Type) := σ × Except Err Unit

end Maliput
