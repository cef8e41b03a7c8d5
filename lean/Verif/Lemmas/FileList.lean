import Verif.Lemmas.Files

set_option autoImplicit false

/-!
Listing files, their suffixes, and paths in a variable of the environment.
-/
namespace Maliput.Files

open Spec

theorem suffixOf_dot (a b : List Char) (h : '.' ∉ b) : suffixOf (a ++ '.' :: b) = b := by
  rw [suffixOf, split_append, split_free _ b h]
  simp

theorem suffixOf_free (l : List Char) (h : '.' ∉ l) : suffixOf l = l := by
  rw [suffixOf, split_free _ l h]
  rfl

theorem suffixOf_suffix (l : List Char) : suffixOf l <:+ l ∧ '.' ∉ suffixOf l := by
  rcases last_piece '.' l with h | ⟨a, b, rfl, h⟩
  · rw [suffixOf_free l h]
    exact ⟨List.suffix_refl _, h⟩
  · rw [suffixOf_dot a b h]
    exact ⟨⟨a ++ ['.'], by simp⟩, h⟩

mutual
theorem mem_pathsOfEntry (suffix : Option (List Char)) (p q : List Char) : ∀ t : Tree,
    q ∈ pathsOfEntry suffix p t ↔ ∃ ns, FileAt t ns ∧ q = pathTo p ns ∧ taken suffix q = true
  | .file => by
    rw [pathsOfEntry]
    constructor
    · intro h
      split at h
      · rename_i ht
        rw [List.mem_singleton] at h
        subst h
        exact ⟨[], .here, rfl, ht⟩
      · cases h
    · rintro ⟨ns, h, rfl, ht⟩
      cases h
      rw [pathTo, List.foldl_nil] at ht ⊢
      rw [if_pos ht]
      simp
  | .dir entries => by
    rw [pathsOfEntry, mem_pathsOfEntries suffix p q entries]
    constructor
    · rintro ⟨n, ns, h, hq, ht⟩
      exact ⟨n :: ns, .inside h, hq, ht⟩
    · rintro ⟨ns, h, hq, ht⟩
      cases h with
      | inside h => exact ⟨_, _, h, hq, ht⟩
theorem mem_pathsOfEntries (suffix : Option (List Char)) (p q : List Char) : ∀ e : Forest,
    q ∈ pathsOfEntries suffix p e ↔ ∃ n ns, FileIn e n ns ∧ q = pathTo p (n :: ns) ∧ taken suffix q = true
  | .nil => by
    rw [pathsOfEntries]
    constructor
    · intro h; cases h
    · rintro ⟨n, ns, h, -⟩; cases h
  | .cons name tree rest => by
    rw [pathsOfEntries, List.mem_append, mem_pathsOfEntry suffix (join p name) q tree, mem_pathsOfEntries suffix p q rest]
    constructor
    · rintro (⟨ns, h, hq, ht⟩ | ⟨n, ns, h, hq, ht⟩)
      · exact ⟨name, ns, .head h, hq, ht⟩
      · exact ⟨n, ns, .tail h, hq, ht⟩
    · rintro ⟨n, ns, h, hq, ht⟩
      cases h with
      | head h => exact .inl ⟨ns, h, hq, ht⟩
      | tail h => exact .inr ⟨n, ns, h, hq, ht⟩
end

/-- A name of an entry: not empty, without slashes. -/
def Good (n : List Char) : Prop := n ≠ [] ∧ '/' ∉ n

theorem names_join (p n : List Char) (h : Good n) : names (join p n) = names p ++ [n] := by
  rw [join]
  split
  · rename_i hl
    obtain ⟨a, rfl⟩ := List.getLast?_eq_some_iff.mp hl
    rw [names_snoc, List.append_assoc, List.singleton_append, names_append, names_free n h.2 h.1]
  · rw [names_append, names_free n h.2 h.1]

theorem names_pathTo (ns : List (List Char)) : ∀ p : List Char, (∀ n ∈ ns, Good n) → names (pathTo p ns) = names p ++ ns := by
  induction ns with
  | nil => intro p _; simp [pathTo]
  | cons n ns ih =>
    intro p h
    have := ih (join p n) fun m hm => h m (by simp [hm])
    rw [pathTo] at this ⊢
    rw [List.foldl_cons, this, names_join p n (h n (by simp))]
    simp

mutual
theorem good_of_fileAt : ∀ (t : Tree) (ns : List (List Char)), Named t → FileAt t ns → ∀ n ∈ ns, Good n
  | .file, ns, _, h => by cases h; simp
  | .dir e, ns, hn, h => by
    cases h with
    | inside h =>
      rename_i n ns
      rw [Named] at hn
      exact good_of_fileIn e n ns hn h
theorem good_of_fileIn : ∀ (e : Forest) (n : List Char) (ns : List (List Char)), NamedIn e → FileIn e n ns →
    ∀ m ∈ n :: ns, Good m
  | .nil, _, _, _, h => by cases h
  | .cons name tree rest, n, ns, hn, h => by
    rw [NamedIn] at hn
    cases h with
    | head h =>
      intro m hm
      rw [List.mem_cons] at hm
      rcases hm with rfl | hm
      · exact ⟨hn.1, hn.2.1⟩
      · exact good_of_fileAt tree ns hn.2.2.2.1 h m hm
    | tail h => exact good_of_fileIn rest n ns hn.2.2.2.2 h
end

theorem mem_entryNames : ∀ (e : Forest) (n : List Char) (ns : List (List Char)), FileIn e n ns → n ∈ entryNames e
  | .nil, _, _, h => by cases h
  | .cons name tree rest, n, ns, h => by
    rw [entryNames, List.mem_cons]
    cases h with
    | head h => exact .inl rfl
    | tail h => exact .inr (mem_entryNames rest n ns h)

mutual
theorem nodup_pathsOfEntry (suffix : Option (List Char)) : ∀ (p : List Char) (t : Tree), Named t → (pathsOfEntry suffix p t).Nodup
  | p, .file, _ => by
    rw [pathsOfEntry]
    split <;> simp
  | p, .dir e, h => by
    rw [Named] at h
    rw [pathsOfEntry]
    exact nodup_pathsOfEntries suffix p e h
theorem nodup_pathsOfEntries (suffix : Option (List Char)) : ∀ (p : List Char) (e : Forest), NamedIn e →
    (pathsOfEntries suffix p e).Nodup
  | _, .nil, _ => by rw [pathsOfEntries]; simp
  | p, .cons name tree rest, h => by
    have hall := h
    rw [NamedIn] at h
    obtain ⟨h1, h2, h3, h4, h5⟩ := h
    rw [pathsOfEntries, List.nodup_append]
    refine ⟨nodup_pathsOfEntry suffix _ tree h4, nodup_pathsOfEntries suffix p rest h5, ?_⟩
    intro a ha b hb
    rw [mem_pathsOfEntry] at ha
    rw [mem_pathsOfEntries] at hb
    obtain ⟨ns, hf, rfl, -⟩ := ha
    obtain ⟨m, ms, hg, rfl, -⟩ := hb
    intro e
    have e := congrArg names e
    have hns := good_of_fileAt tree ns h4 hf
    rw [names_pathTo _ _ hns, names_join _ _ ⟨h1, h2⟩, names_pathTo _ _ (good_of_fileIn rest m ms h5 hg), List.append_assoc] at e
    have e := List.append_cancel_left e
    rw [List.singleton_append, List.cons.injEq] at e
    exact h3 (e.1 ▸ mem_entryNames rest m ms hg)
end

theorem split_colons (ps : List (List Char)) (hne : ps ≠ []) (h : ∀ p ∈ ps, ':' ∉ p) : split ':' (Spec.colons ps) = ps := by
  induction ps with
  | nil => exact absurd rfl hne
  | cons p ps ih =>
    have hp := h p (by simp)
    cases ps with
    | nil => exact split_free _ p hp
    | cons q ps =>
      show split ':' (p ++ ':' :: Spec.colons (q :: ps)) = _
      rw [split_append, split_free _ p hp, ih (by simp) fun r hr => h r (by simp [hr])]
      rfl

theorem readLoop_ends (l : List Char) : ∀ n, l.length < n → readLoop false n l = some l := by
  induction l with
  | nil =>
    intro n h
    obtain ⟨m, rfl⟩ : ∃ m, n = m + 1 := ⟨n - 1, by simp at h; omega⟩
    rfl
  | cons c l ih =>
    intro n h
    rw [List.length_cons] at h
    obtain ⟨m, rfl⟩ : ∃ m, n = m + 1 := ⟨n - 1, by omega⟩
    rw [readLoop, ih m (by omega)]
    rfl

theorem readLoop_hangs (n : Nat) : ∀ l : List Char, readLoop true n l = none := by
  induction n with
  | zero => intro l; rfl
  | succ n ih =>
    intro l
    cases l with
    | nil => rw [readLoop, if_pos rfl, ih]; rfl
    | cons c l => rw [readLoop, ih]; rfl

theorem normalize_names {p r : List Char} (h : normalize p = .ok r) : names r = names p ∧ r.head? = p.head? ∧ p ≠ [] ∧ r ≠ [] := by
  rw [normalize] at h
  split at h
  · cases h
  · rename_i hp
    split at h
    · rename_i hc
      cases h
      obtain ⟨a, rfl⟩ := List.getLast?_eq_some_iff.mp hc.1
      have hl : (a ++ ['/']).length - 1 = a.length := by simp
      rw [hl, List.take_left, names_snoc]
      have ha : a ≠ [] := by
        rintro rfl
        simp at hc
      refine ⟨rfl, ?_, hp, ha⟩
      cases a with
      | nil => exact absurd rfl ha
      | cons c a => rfl
    · cases h
      exact ⟨rfl, rfl, hp, hp⟩

end Maliput.Files
