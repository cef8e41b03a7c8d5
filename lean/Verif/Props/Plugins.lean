import Verif.Lemmas.Plugins
import Verif.Props.Files

set_option autoImplicit false

/-!
# C118: plugins
-/
namespace Maliput.Props

open Files Files.Spec Plugins Plugins.Spec

variable {L : Type}

/-- **C118.** A manager is made when every file below the directories of the variable of the environment whose path ends in `.so`
is a plugin; otherwise the constructor throws an `assertion_error`. -/
theorem manager_made (disk : List Char → Option Tree) (linker : List Char → Option (Library L)) (env : Option (List Char)) :
    ((∃ m, newManager disk linker env = .ok m) ↔
      ∀ q, LibraryIn disk (pathsFromEnvironment env) q → ∃ plugin, PluginAt linker q plugin) ∧
    (∀ e, newManager disk linker env = .error e → e = .throws) := by
  obtain ⟨paths, hp, hm⟩ := libraryPaths_spec disk (pathsFromEnvironment env)
  have he : newManager disk linker env = addPlugins linker Map.empty paths := by rw [newManager, hp]; rfl
  rw [he, addPlugins_iff.1]
  refine ⟨⟨fun h q hq => h q ((hm q).mpr hq), fun h q hq => h q ((hm q).mp hq)⟩, addPlugins_iff.2⟩

/-- **C118.** Every plugin in these directories is then available under its id, or another one with that id is; an id no plugin
has is not found. -/
theorem plugins_available (disk : List Char → Option Tree) (linker : List Char → Option (Library L)) (env : Option (List Char))
    (m : Map String (Plugin L)) (h : newManager disk linker env = .ok m) :
    (∀ q plugin, LibraryIn disk (pathsFromEnvironment env) q → PluginAt linker q plugin →
      ∃ found, getPlugin m plugin.id = some found ∧ found.id = plugin.id) ∧
    (∀ id found, getPlugin m id = some found →
      found.id = id ∧ PluginAt linker found.path found ∧ LibraryIn disk (pathsFromEnvironment env) found.path) := by
  obtain ⟨paths, hp, hm⟩ := libraryPaths_spec disk (pathsFromEnvironment env)
  have he : newManager disk linker env = addPlugins linker Map.empty paths := by rw [newManager, hp]; rfl
  rw [he] at h
  obtain ⟨-, h2⟩ := addPlugins_ok h
  -- the last path with a plugin of an id
  have last : ∀ (id : String) (l : List (List Char)), (∀ q ∈ l, ∀ other, PluginAt linker q other → other.id ≠ id) ∨
      ∃ before p after plugin, l = before ++ p :: after ∧ PluginAt linker p plugin ∧ plugin.id = id ∧
        ∀ q ∈ after, ∀ other, PluginAt linker q other → other.id ≠ id := by
    intro id l
    induction l with
    | nil => exact .inl fun q hq => by cases hq
    | cons x l ih =>
      rcases ih with ih | ⟨b, p, a, pl, rfl, h⟩
      · by_cases hx : ∃ pl, PluginAt linker x pl ∧ pl.id = id
        · obtain ⟨pl, h1, h2⟩ := hx
          exact .inr ⟨[], x, l, pl, rfl, h1, h2, ih⟩
        · refine .inl fun q hq other ho hid => ?_
          rw [List.mem_cons] at hq
          rcases hq with rfl | hq
          · exact hx ⟨other, ho, hid⟩
          · exact ih q hq other ho hid
      · exact .inr ⟨x :: b, p, a, pl, rfl, h⟩
  constructor
  · intro q plugin hq hpl
    rcases last plugin.id paths with hno | ⟨b, p, a, pl, rfl, h3, h4, h5⟩
    · exact absurd rfl (hno q ((hm q).mpr hq) plugin hpl)
    · exact ⟨pl, (h2 plugin.id).1 b p a pl rfl h3 h4 h5, h4⟩
  · intro id found hf
    rcases last id paths with hno | ⟨b, p, a, pl, hpaths, h3, h4, h5⟩
    · have := (h2 id).2 hno
      rw [getPlugin, this] at hf
      cases hf
    · have := (h2 id).1 b p a pl hpaths h3 h4 h5
      rw [getPlugin, this] at hf
      cases hf
      have hpath := h3.2.2.1
      rw [hpath]
      exact ⟨h4, h3, (hm p).mp (by rw [hpaths]; simp)⟩

/-- **C118.** Of the plugins with an id, the one added last prevails; plugins with other ids are not affected. This holds for any
calls of `AddPlugin`, and for the constructor, which adds the plugins in the order in which they are found. -/
theorem last_plugin_prevails (linker : List Char → Option (Library L)) (m m' : Map String (Plugin L)) (paths : List (List Char))
    (h : addPlugins linker m paths = .ok m') (id : String) :
    (∀ before p after plugin, paths = before ++ p :: after → PluginAt linker p plugin → plugin.id = id →
      (∀ q ∈ after, ∀ other, PluginAt linker q other → other.id ≠ id) → getPlugin m' id = some plugin) ∧
    ((∀ q ∈ paths, ∀ other, PluginAt linker q other → other.id ≠ id) → getPlugin m' id = getPlugin m id) :=
  (addPlugins_ok h).2 id

/-- **C118.** `ListPlugins` has exactly the plugins `GetPlugin` finds, with their types. -/
theorem plugins_listed (m : Map String (Plugin L)) (id : String) :
    (listPlugins m).get? id = (getPlugin m id).map (·.type) := listPlugins_get m id

/-- **C118.** `MakeRoadNetworkLoader` gives what the entry point of the plugin with the id makes, when the manager finds it, its
type is that of a loader of road networks (0) and it has the entry point; otherwise it throws an `assertion_error`. -/
theorem loader_made (m : Map String (Plugin L)) (id : String) :
    (∀ l, makeLoader m id = .ok l ↔ id ≠ "" ∧ ∃ plugin, getPlugin m id = some plugin ∧ plugin.type = 0 ∧
      plugin.make = some l) ∧
    (∀ e, makeLoader m id = .error e → e = .throws) := by
  change (∀ l, makeLoader m id = .ok l ↔ id ≠ "" ∧ ∃ plugin, getPlugin m id = some plugin ∧ plugin.type = roadNetworkLoader ∧
      plugin.make = some l) ∧ _
  rw [makeLoader]
  by_cases hid : id = ""
  · subst hid
    refine ⟨fun l => ⟨fun h => (by cases h), fun h => absurd rfl h.1⟩, fun e h => by cases h; rfl⟩
  · have h1 : throwUnless (id != "") = .ok () := by
      have : (id != "") = true := by simp [hid]
      rw [this]; rfl
    rw [h1]
    simp only [bind, Except.bind]
    cases hg : getPlugin m id with
    | none =>
      refine ⟨fun l => ⟨fun h => (by cases h), ?_⟩, fun e h => by cases h; rfl⟩
      rintro ⟨-, p, hp, -⟩
      cases hp
    | some plugin =>
      dsimp only
      by_cases ht : plugin.type = roadNetworkLoader
      · have h2 : throwUnless (plugin.type == roadNetworkLoader) = .ok () := by rw [ht]; rfl
        rw [h2]
        dsimp only
        cases hmk : plugin.make with
        | none =>
          refine ⟨fun l => ⟨fun h => (by cases h), ?_⟩, fun e h => by cases h; rfl⟩
          rintro ⟨-, p, hp, -, hm⟩
          cases hp
          rw [hmk] at hm
          cases hm
        | some l' =>
          refine ⟨fun l => ⟨fun h => ?_, ?_⟩, fun e h => by cases h⟩
          · cases h
            exact ⟨hid, plugin, rfl, ht, hmk⟩
          · rintro ⟨-, p, hp, -, hm⟩
            cases hp
            rw [hmk] at hm
            cases hm
            rfl
      · have h2 : throwUnless (plugin.type == roadNetworkLoader) = .error .throws := by
          have : (plugin.type == roadNetworkLoader) = false := by simp [ht]
          rw [this]; rfl
        rw [h2]
        refine ⟨fun l => ⟨fun h => (by cases h), ?_⟩, fun e h => by cases h; rfl⟩
        rintro ⟨-, p, hp, h, -⟩
        cases hp
        exact absurd h ht

/-- **C118.** Libraries are looked for once: after a call of `MakeRoadNetworkLoader` which found its manager, later calls give the
same for the same id whatever has become of the environment, the disk and the libraries, and keep the manager. -/
theorem manager_kept (disk disk' : List Char → Option Tree) (linker linker' : List Char → Option (Library L))
    (env env' : Option (List Char)) (id id' : String) (m : Map String (Plugin L)) (r : Except Err L)
    (h : makeRoadNetworkLoader none disk linker env id = (some m, r)) :
    makeRoadNetworkLoader (some m) disk' linker' env' id' = (some m, (makeRoadNetworkLoader none disk linker env id').2) := by
  rw [makeRoadNetworkLoader] at h ⊢
  rw [makeRoadNetworkLoader]
  cases hk : keptManager none disk linker env with
  | error e => rw [hk] at h; cases h
  | ok m₁ =>
    rw [hk] at h
    cases h
    rfl

/-- What the linker finds in the example: two loaders with the same id, `libm.so` and `more/x.so`. -/
def exampleLinker (p : List Char) : Option (Library String) :=
  if p = "/lib/libm.so".toList then some ⟨some "town", some 0, some "loader m"⟩
  else if p = "/lib/more/x.so".toList then some ⟨some "town", some 0, some "loader x"⟩
  else none

theorem libraries_in (q : List Char) (h : LibraryIn libraryDisk ["/lib".toList] q) :
    q = "/lib/libm.so".toList ∨ q = "/lib/more/x.so".toList := by
  obtain ⟨d, hd, entries, n, ns, h1, h2, rfl, h3⟩ := h
  rw [List.mem_singleton] at hd
  subst hd
  cases h1
  cases h2 with
  | head h => cases h; exact .inl (by decide)
  | tail h =>
    cases h with
    | head h =>
      cases h
      exact absurd h3 (by decide)
    | tail h =>
      cases h with
      | head h =>
        cases h with
        | inside h =>
          cases h with
          | head h => cases h; exact .inr (by decide)
          | tail h => cases h
      | tail h => cases h

/-- **C118, witness.** The manager documents to try to load all plugins and make the available ones available. One library in its
directories which is not a plugin keeps all others from being available: the constructor throws. -/
theorem one_bad_library_hides_all :
    (∃ q plugin, LibraryIn libraryDisk ["/lib".toList] q ∧
      PluginAt (fun p => if p = "/lib/libm.so".toList then exampleLinker p else none) q plugin) ∧
    (newManager libraryDisk (fun p => if p = "/lib/libm.so".toList then exampleLinker p else none) (some "/lib".toList)).isOk = false := by
  refine ⟨⟨"/lib/libm.so".toList, ⟨"/lib/libm.so".toList, "town", 0, some "loader m"⟩, ⟨"/lib".toList, by simp, libraries,
    "libm.so".toList, [], rfl, .head .here, by decide, ⟨"/lib/libm".toList, by decide⟩⟩, by decide, by decide, rfl, rfl⟩, by decide⟩

/-- **C118, witness.** `CreateRoadNetwork` documents an `assertion_error` when the road network cannot be loaded; a null pointer
the loader gives is returned. -/
theorem null_network_returned {P N : Type} (m : Map String (Plugin (P → Except Err (Option N)))) (id : String) (properties : P)
    (loader : P → Except Err (Option N)) (h : makeLoader m id = .ok loader) (null : loader properties = .ok none) :
    createRoadNetwork m id properties = .ok none := by
  rw [createRoadNetwork, h]
  exact null

example : ∃ m, newManager libraryDisk exampleLinker (some "/lib".toList) = .ok m ∧
    (getPlugin m "town").map (·.make) = some (some "loader x") ∧ makeLoader m "town" = .ok "loader x" := by
  obtain ⟨m, hm⟩ := (manager_made libraryDisk exampleLinker (some "/lib".toList)).1.mpr (by
    intro q hq
    rcases libraries_in q hq with rfl | rfl
    · exact ⟨⟨_, "town", 0, some "loader m"⟩, by decide, by decide, rfl, rfl⟩
    · exact ⟨⟨_, "town", 0, some "loader x"⟩, by decide, by decide, rfl, rfl⟩)
  have he : newManager libraryDisk exampleLinker (some "/lib".toList) =
      addPlugins exampleLinker Map.empty ["/lib/libm.so".toList, "/lib/more/x.so".toList] := rfl
  have hx : PluginAt exampleLinker "/lib/more/x.so".toList ⟨"/lib/more/x.so".toList, "town", 0, some "loader x"⟩ :=
    ⟨by decide, by decide, rfl, rfl⟩
  have hl := (last_plugin_prevails exampleLinker Map.empty m ["/lib/libm.so".toList, "/lib/more/x.so".toList] (he ▸ hm) "town").1
    ["/lib/libm.so".toList] _ [] _ rfl hx rfl (by simp)
  exact ⟨m, hm, by rw [hl]; rfl, ((loader_made m "town").1 "loader x").mpr ⟨by decide, _, hl, rfl, rfl⟩⟩

/-- A manager with a loader which gives null pointers. -/
def nullManager : Map String (Plugin (Unit → Except Err (Option Nat))) :=
  Map.empty.set "town" ⟨"/lib/x.so".toList, "town", 0, some fun _ => .ok none⟩

example : createRoadNetwork nullManager "town" () = .ok none :=
  null_network_returned nullManager "town" () (fun _ => .ok none) rfl rfl

example : makeRoadNetworkLoader (some nullManager) libraryDisk (fun _ => none) none "other" = (some nullManager, .error .throws) := rfl

end Maliput.Props
