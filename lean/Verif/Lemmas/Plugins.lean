import Verif.Spec.Plugins
import Verif.Lemmas.FileList
import Verif.Lemmas.Map

set_option autoImplicit false

/-!
Loading plugins.
-/
namespace Maliput.Plugins

open Files Files.Spec Spec

variable {L : Type}

theorem load_ok {linker : List Char → Option (Library L)} {path : List Char} {plugin : Plugin L} :
    load linker path = .ok plugin ↔ PluginAt linker path plugin := by
  rw [load, PluginAt]
  cases plugin with
  | mk pp pid pt pm =>
    by_cases hp : path = []
    · subst hp
      constructor
      · intro h; cases h
      · intro h; exact absurd rfl h.1
    · have h1 : throwUnless (path != []) = .ok () := by
        have : (path != []) = true := by simp [hp]
        rw [this]; rfl
      rw [h1]
      simp only [bind, Except.bind, pure, Except.pure, executeSymbol]
      cases hl : linker path with
      | none =>
        constructor
        · intro h; cases h
        · intro h; cases h.2.2.2
      | some lib =>
        cases lib with
        | mk i t mk =>
          cases i with
          | none =>
            constructor
            · intro h; cases h
            · intro h; cases h.2.2.2
          | some i =>
            by_cases hi : i = ""
            · subst hi
              constructor
              · intro h; cases h
              · rintro ⟨-, h, -, e⟩
                cases e
                exact absurd rfl h
            · have h2 : throwUnless (i != "") = .ok () := by
                have : (i != "") = true := by simp [hi]
                rw [this]; rfl
              dsimp only
              rw [h2]
              cases t with
              | none =>
                constructor
                · intro h; cases h
                · intro h; cases h.2.2.2
              | some t =>
                dsimp only
                constructor
                · intro h
                  cases h
                  exact ⟨hp, hi, rfl, rfl⟩
                · rintro ⟨-, -, rfl, e⟩
                  cases e
                  rfl

theorem load_error {linker : List Char → Option (Library L)} {path : List Char} {e : Err} (h : load linker path = .error e) :
    e = .throws := by
  rw [load] at h
  unfold throwUnless at h
  by_cases hp : path != []
  · rw [if_pos hp] at h
    simp only [bind, Except.bind, pure, Except.pure, executeSymbol] at h
    cases hl : linker path with
    | none => rw [hl] at h; cases h; rfl
    | some lib =>
      rw [hl] at h
      dsimp only at h
      cases hi : lib.id with
      | none => rw [hi] at h; cases h; rfl
      | some i =>
        rw [hi] at h
        dsimp only at h
        by_cases hn : i != ""
        · rw [if_pos hn] at h
          dsimp only at h
          cases ht : lib.type with
          | none => rw [ht] at h; cases h; rfl
          | some t => rw [ht] at h; cases h
        · rw [if_neg hn] at h; cases h; rfl
  · rw [if_neg hp] at h; cases h; rfl

theorem addPlugin_ok {linker : List Char → Option (Library L)} {m m' : Map String (Plugin L)} {path : List Char} :
    addPlugin linker m path = .ok m' ↔ ∃ plugin, PluginAt linker path plugin ∧ m' = m.set plugin.id plugin := by
  rw [addPlugin]
  cases hl : load linker path with
  | error e =>
    constructor
    · intro h
      by_cases hp : path != []
      · rw [throwUnless, if_pos hp] at h; cases h
      · rw [throwUnless, if_neg hp] at h; cases h
    · rintro ⟨plugin, hp, -⟩
      rw [load_ok.mpr hp] at hl
      cases hl
  | ok plugin =>
    have hpl := load_ok.mp hl
    have hp : (path != []) = true := by simp [hpl.1]
    rw [throwUnless, if_pos hp]
    simp only [bind, Except.bind, pure, Except.pure]
    constructor
    · intro h
      cases h
      exact ⟨plugin, hpl, rfl⟩
    · rintro ⟨q, hq, rfl⟩
      rw [load_ok.mpr hq] at hl
      cases hl
      rfl

theorem addPlugin_error {linker : List Char → Option (Library L)} {m : Map String (Plugin L)} {path : List Char} {e : Err}
    (h : addPlugin linker m path = .error e) : e = .throws := by
  rw [addPlugin] at h
  by_cases hp : path != []
  · rw [throwUnless, if_pos hp] at h
    cases hl : load linker path with
    | error e' =>
      rw [hl] at h
      cases h
      exact load_error hl
    | ok plugin => rw [hl] at h; cases h
  · rw [throwUnless, if_neg hp] at h; cases h; rfl

theorem addPlugins_ok {linker : List Char → Option (Library L)} : ∀ {paths : List (List Char)} {m m' : Map String (Plugin L)},
    addPlugins linker m paths = .ok m' → (∀ p ∈ paths, ∃ plugin, PluginAt linker p plugin) ∧
      ∀ id, (∀ before p after plugin, paths = before ++ p :: after → PluginAt linker p plugin → plugin.id = id →
          (∀ q ∈ after, ∀ other, PluginAt linker q other → other.id ≠ id) → m'.get? id = some plugin) ∧
        ((∀ q ∈ paths, ∀ other, PluginAt linker q other → other.id ≠ id) → m'.get? id = m.get? id) := by
  intro paths
  induction paths with
  | nil =>
    intro m m' h
    cases h
    refine ⟨by simp, fun id => ⟨?_, fun _ => rfl⟩⟩
    intro before p after plugin h
    cases before <;> cases h
  | cons p paths ih =>
    intro m m' h
    rw [addPlugins] at h
    cases ha : addPlugin linker m p with
    | error e => rw [ha] at h; cases h
    | ok m₁ =>
      rw [ha] at h
      obtain ⟨plugin, hpl, rfl⟩ := addPlugin_ok.mp ha
      obtain ⟨h1, h2⟩ := ih h
      have huniq : ∀ other, PluginAt linker p other → other = plugin := by
        intro other ho
        have e := load_ok.mpr ho
        rw [load_ok.mpr hpl] at e
        cases e
        rfl
      refine ⟨?_, fun id => ⟨?_, ?_⟩⟩
      · intro q hq
        rw [List.mem_cons] at hq
        rcases hq with rfl | hq
        · exact ⟨plugin, hpl⟩
        · exact h1 q hq
      · intro before q after pl he hq hid hno
        cases before with
        | nil =>
          cases he
          cases huniq pl hq
          rw [(h2 id).2 hno, Map.get?_set, if_pos hid.symm]
        | cons b before =>
          rw [List.cons_append, List.cons.injEq] at he
          exact (h2 id).1 before q after pl he.2 hq hid hno
      · intro hno
        rw [(h2 id).2 fun q hq => hno q (by simp [hq]), Map.get?_set, if_neg]
        exact fun e => hno p (by simp) plugin hpl e.symm

theorem addPlugins_iff {linker : List Char → Option (Library L)} : ∀ {paths : List (List Char)} {m : Map String (Plugin L)},
    ((∃ m', addPlugins linker m paths = .ok m') ↔ ∀ p ∈ paths, ∃ plugin, PluginAt linker p plugin) ∧
    (∀ e, addPlugins linker m paths = .error e → e = .throws) := by
  intro paths
  induction paths with
  | nil => exact fun {m} => ⟨⟨fun _ => by simp, fun _ => ⟨m, rfl⟩⟩, fun e h => by cases h⟩
  | cons p paths ih =>
    intro m
    refine ⟨⟨fun ⟨m', h⟩ => (addPlugins_ok h).1, fun h => ?_⟩, ?_⟩
    · obtain ⟨plugin, hpl⟩ := h p (by simp)
      have := addPlugin_ok (m := m).mpr ⟨plugin, hpl, rfl⟩
      obtain ⟨m', hm⟩ := (ih (m := m.set plugin.id plugin)).1.mpr fun q hq => h q (by simp [hq])
      exact ⟨m', by rw [addPlugins, this]; exact hm⟩
    · intro e h
      rw [addPlugins] at h
      cases ha : addPlugin linker m p with
      | error e' =>
        rw [ha] at h
        cases h
        exact addPlugin_error ha
      | ok m₁ =>
        rw [ha] at h
        exact (ih (m := m₁)).2 e h

theorem taken_so (q : List Char) (hs : '/' ∈ q) : taken (some ['s', 'o']) q = true ↔ ['.', 's', 'o'] <:+ q := by
  rw [taken, Bool.or_eq_true, beq_iff_eq, beq_iff_eq]
  constructor
  · rintro (h | h)
    · cases h
    · rcases last_piece '.' q with hq | ⟨a, b, rfl, hb⟩
      · rw [suffixOf_free q hq] at h
        subst h
        exact absurd hs (by decide)
      · rw [suffixOf_dot a b hb] at h
        subst h
        exact ⟨a, rfl⟩
  · rintro ⟨a, rfl⟩
    right
    exact suffixOf_dot a ['s', 'o'] (by decide)

theorem slash_mem (ns : List (List Char)) : ∀ p : List Char, '/' ∈ p → '/' ∈ pathTo p ns := by
  induction ns with
  | nil => exact fun p h => h
  | cons n ns ih =>
    intro p h
    apply ih
    rw [join]
    split <;> simp [h]

theorem slash_join (p n : List Char) : '/' ∈ join p n := by
  rw [join]
  split
  · rename_i h
    exact List.mem_append_left _ (List.mem_of_getLast? h)
  · simp

theorem libraryPaths_spec (disk : List Char → Option Tree) (dirs : List (List Char)) :
    ∃ paths, libraryPaths disk dirs = .ok paths ∧ ∀ q, q ∈ paths ↔ LibraryIn disk dirs q := by
  induction dirs with
  | nil =>
    refine ⟨[], rfl, fun q => ⟨fun h => (List.not_mem_nil h).elim, ?_⟩⟩
    rintro ⟨d, hd, -⟩
    cases hd
  | cons d dirs ih =>
    obtain ⟨rest, hr, hm⟩ := ih
    cases hd : disk d with
    | none =>
      refine ⟨rest, by rw [libraryPaths, onDisk, hd]; exact hr, fun q => ?_⟩
      rw [hm]
      constructor
      · rintro ⟨d', hd', h⟩
        exact ⟨d', by simp [hd'], h⟩
      · rintro ⟨d', hd', entries, n, ns, h1, h2⟩
        rw [List.mem_cons] at hd'
        rcases hd' with rfl | hd'
        · rw [hd] at h1; cases h1
        · exact ⟨d', hd', entries, n, ns, h1, h2⟩
    | some t =>
      cases t with
      | file =>
        refine ⟨rest, by rw [libraryPaths, onDisk, hd]; exact hr, fun q => ?_⟩
        rw [hm]
        constructor
        · rintro ⟨d', hd', h⟩
          exact ⟨d', by simp [hd'], h⟩
        · rintro ⟨d', hd', entries, n, ns, h1, h2⟩
          rw [List.mem_cons] at hd'
          rcases hd' with rfl | hd'
          · rw [hd] at h1; cases h1
          · exact ⟨d', hd', entries, n, ns, h1, h2⟩
      | dir entries =>
        refine ⟨pathsOfEntries (some ['s', 'o']) d entries ++ rest, ?_, fun q => ?_⟩
        · rw [libraryPaths, onDisk, hd, hr, allFilePaths, hd]
          rfl
        · rw [List.mem_append, hm, mem_pathsOfEntries]
          constructor
          · rintro (⟨n, ns, h1, rfl, h2⟩ | ⟨d', hd', h⟩)
            · exact ⟨d, by simp, entries, n, ns, hd, h1, rfl, (taken_so _ (slash_mem ns _ (slash_join d n))).mp h2⟩
            · exact ⟨d', by simp [hd'], h⟩
          · rintro ⟨d', hd', entries', n, ns, h1, h2, rfl, h3⟩
            rw [List.mem_cons] at hd'
            rcases hd' with rfl | hd'
            · rw [hd] at h1
              cases h1
              exact .inl ⟨n, ns, h2, rfl, (taken_so _ (slash_mem ns _ (slash_join d' n))).mpr h3⟩
            · exact .inr ⟨d', hd', entries', n, ns, h1, h2, rfl, h3⟩

theorem listPlugins_get (m : Map String (Plugin L)) (id : String) :
    (listPlugins m).get? id = (getPlugin m id).map (·.type) := by
  have key : ∀ (l : List (String × Plugin L)) (ids : Map String Nat), (l.map (·.1)).Nodup → (∀ e ∈ l, ids.get? e.1 = none) →
      (l.foldl (fun ids e => (ids.emplace e.1 e.2.type).1) ids).get? id =
        ((l.find? fun e => decide (e.1 = id)).map (·.2.type)).or (ids.get? id) := by
    intro l
    induction l with
    | nil => intro ids _ _; simp
    | cons e l ih =>
      intro ids hn hi
      rw [List.map_cons, List.nodup_cons] at hn
      have he := hi e (by simp)
      rw [List.foldl_cons, ih _ hn.2]
      · rw [List.find?_cons]
        have hg := Map.get?_emplace ids e.1 id e.2.type
        by_cases h : e.1 = id
        · subst h
          have hf : (l.find? fun e' => decide (e'.1 = e.1)) = none := by
            rw [List.find?_eq_none]
            intro x hx
            simp only [decide_eq_true_eq]
            intro hxe
            exact hn.1 (hxe ▸ List.mem_map_of_mem hx)
          rw [hf, hg]
          simp [he]
        · simp only [h, decide_false]
          rw [hg]
          congr 1
          simp [Ne.symm h]
      · intro x hx
        rw [Map.get?_emplace]
        have hne : x.1 ≠ e.1 := fun h => hn.1 (h ▸ List.mem_map_of_mem hx)
        simp [hne, hi x (by simp [hx])]
  rw [listPlugins, key m.entries Map.empty m.nodup (fun _ _ => rfl), getPlugin, Map.get?_empty, Map.get?]
  cases List.find? (fun e => decide (e.1 = id)) m.entries <;> rfl

end Maliput.Plugins
