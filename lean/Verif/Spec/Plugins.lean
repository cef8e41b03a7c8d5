import Verif.Model.Plugins
import Verif.Spec.Files

set_option autoImplicit false

/-!
# What plugins are

A library at a path is a plugin when the linker finds it with an id, which is not empty, and a type.
-/
namespace Maliput.Plugins.Spec

open Files Files.Spec

variable {L : Type}

/-- At a path there is a plugin. -/
def PluginAt (linker : List Char → Option (Library L)) (path : List Char) (plugin : Plugin L) : Prop :=
  path ≠ [] ∧ plugin.id ≠ "" ∧ plugin.path = path ∧ linker path = some ⟨some plugin.id, some plugin.type, plugin.make⟩

/-- A file below one of the directories whose path ends in `.so`. -/
def LibraryIn (disk : List Char → Option Tree) (dirs : List (List Char)) (q : List Char) : Prop :=
  ∃ d ∈ dirs, ∃ entries n ns, disk d = some (.dir entries) ∧ FileIn entries n ns ∧ q = pathTo d (n :: ns) ∧
    ['.', 's', 'o'] <:+ q

end Maliput.Plugins.Spec
