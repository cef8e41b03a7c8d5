import Verif.Model.Files
import Verif.Model.Map

set_option autoImplicit false

/-!
# Plugins

`src/maliput/plugin/maliput_plugin.cc`, `maliput_plugin_manager.cc` and `create_road_network.cc`. What the dynamic linker finds
at a path is a parameter. `L` is what the entry point of a plugin makes.
-/
namespace Maliput.Plugins

open Files

variable {L : Type}

/-- What the dynamic linker finds in a library: the values of the functions it defines, if it does
(include/maliput/plugin/maliput_plugin.h:53-57, include/maliput/plugin/road_network_loader.h:42-47). -/
structure Library (L : Type) where
  id : Option String
  type : Option Nat
  make : Option L

/-- A `MaliputPlugin` (include/maliput/plugin/maliput_plugin.h:117-122). -/
structure Plugin (L : Type) where
  path : List Char
  id : String
  type : Nat
  make : Option L

/-- `MaliputPluginType::kRoadNetworkLoader` (include/maliput/plugin/maliput_plugin_type.h:39-41). -/
def roadNetworkLoader : Nat := 0

/-- `MaliputPlugin::ExecuteSymbol` (include/maliput/plugin/maliput_plugin.h:94-104). -/
def executeSymbol {α : Type} : Option α → Except Err α
  | some x => .ok x
  | none => .error .throws

/-- The constructor of `MaliputPlugin`; an id is not empty (src/maliput/plugin/maliput_plugin.cc:35-45). -/
def load (linker : List Char → Option (Library L)) (path : List Char) : Except Err (Plugin L) := do
  throwUnless (path != [])
  let lib ← executeSymbol (linker path)
  let id ← executeSymbol lib.id
  throwUnless (id != "")
  let type ← executeSymbol lib.type
  pure ⟨path, id, type, lib.make⟩

/-- `MaliputPluginManager::AddPlugin` (src/maliput/plugin/maliput_plugin_manager.cc:77-85). Log messages are not modelled. -/
def addPlugin (linker : List Char → Option (Library L)) (m : Map String (Plugin L)) (path : List Char) :
    Except Err (Map String (Plugin L)) := do
  throwUnless (path != [])
  let plugin ← load linker path
  pure (m.set plugin.id plugin)

/-- `Path::is_directory`, on a disk (src/maliput/common/filesystem.cc:116-123). -/
def onDisk (disk : List Char → Option Tree) (p : List Char) : Bool :=
  match disk p with
  | some (.dir _) => true
  | _ => false

/-- The loop of `GetPluginLibraryPaths` (src/maliput/plugin/maliput_plugin_manager.cc:48-59). -/
def libraryPaths (disk : List Char → Option Tree) : List (List Char) → Except Err (List (List Char))
  | [] => .ok []
  | p :: ps =>
    if onDisk disk p then do
      let found ← allFilePaths disk p (some ['s', 'o'])
      let rest ← libraryPaths disk ps
      pure (found ++ rest)
    else libraryPaths disk ps

/-- `AddPlugin` for each path (src/maliput/plugin/maliput_plugin_manager.cc:66-68). -/
def addPlugins (linker : List Char → Option (Library L)) (m : Map String (Plugin L)) : List (List Char) →
    Except Err (Map String (Plugin L))
  | [] => .ok m
  | p :: ps => do
    let m' ← addPlugin linker m p
    addPlugins linker m' ps

/-- The constructor of `MaliputPluginManager`, with the value of the variable of the environment
(src/maliput/plugin/maliput_plugin_manager.cc:44-60, 64-70). -/
def newManager (disk : List Char → Option Tree) (linker : List Char → Option (Library L)) (env : Option (List Char)) :
    Except Err (Map String (Plugin L)) := do
  let paths ← libraryPaths disk (pathsFromEnvironment env)
  addPlugins linker Map.empty paths

/-- `MaliputPluginManager::GetPlugin` (src/maliput/plugin/maliput_plugin_manager.cc:72-75). -/
def getPlugin (m : Map String (Plugin L)) (id : String) : Option (Plugin L) := m.get? id

/-- `MaliputPluginManager::ListPlugins` (src/maliput/plugin/maliput_plugin_manager.cc:87-93). -/
def listPlugins (m : Map String (Plugin L)) : Map String Nat :=
  m.entries.foldl (fun ids e => (ids.emplace e.1 e.2.type).1) Map.empty

/-- The manager which `MakeRoadNetworkLoader` keeps: made by the first call for which it can be made
(src/maliput/plugin/create_road_network.cc:42). -/
def keptManager (kept : Option (Map String (Plugin L))) (disk : List Char → Option Tree)
    (linker : List Char → Option (Library L)) (env : Option (List Char)) : Except Err (Map String (Plugin L)) :=
  match kept with
  | some m => .ok m
  | none => newManager disk linker env

/-- `MakeRoadNetworkLoader`, with the kept manager; an empty id is refused (src/maliput/plugin/create_road_network.cc:38-58). -/
def makeLoader (m : Map String (Plugin L)) (id : String) : Except Err L := do
  throwUnless (id != "")
  match getPlugin m id with
  | none => .error .throws
  | some plugin => do
    throwUnless (plugin.type == roadNetworkLoader)
    executeSymbol plugin.make

/-- `MakeRoadNetworkLoader`: the manager kept after the call and the result (src/maliput/plugin/create_road_network.cc:38-58). -/
def makeRoadNetworkLoader (kept : Option (Map String (Plugin L))) (disk : List Char → Option Tree)
    (linker : List Char → Option (Library L)) (env : Option (List Char)) (id : String) :
    Option (Map String (Plugin L)) × Except Err L :=
  match keptManager kept disk linker env with
  | .error e => (none, .error e)
  | .ok m => (some m, makeLoader m id)

/-- `CreateRoadNetwork`: a loader gives a road network, a null pointer or an exception for the properties
(src/maliput/plugin/create_road_network.cc:60-66). -/
def createRoadNetwork {P N : Type} (m : Map String (Plugin (P → Except Err (Option N)))) (id : String) (properties : P) :
    Except Err (Option N) := do
  let loader ← makeLoader m id
  loader properties

end Maliput.Plugins
