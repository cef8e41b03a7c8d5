import Verif.Model.GenerateObj

set_option autoImplicit false

/-!
Model of src/maliput/utility/generate_urdf.cc.  Texts are lists of characters.
-/
namespace Maliput.Urdf

open Maliput.RouteGraph (Stop)
open Maliput.GenerateObj (Env Features RoadGeometry)

/-- The text of the file, src/maliput/utility/generate_urdf.cc:47-65. -/
def urdfText (id objFilename : List Char) : List Char :=
  "<?xml version=\"1.0\" ?>\n".toList ++
  "<robot name=\"".toList ++ id ++ "\">\n".toList ++
  "  <link name=\"world\"/>\n".toList ++
  "\n".toList ++
  "  <joint name=\"world_to_road_joint\" type=\"continuous\">\n".toList ++
  "    <origin rpy=\"0 0 0\" xyz=\"0 0 0\"/>\n".toList ++
  "    <parent link=\"world\"/>\n".toList ++
  "    <child link=\"surface\"/>\n".toList ++
  "  </joint>\n".toList ++
  "\n".toList ++
  "  <link name=\"surface\">\n".toList ++
  "    <visual name=\"v1\">\n".toList ++
  "      <origin rpy=\"0 0 0\" xyz=\"0 0 0\"/>\n".toList ++
  "      <geometry>\n".toList ++
  "        <mesh filename=\"".toList ++ objFilename ++ "\" scale=\"1.0 1.0 1.0\"/>\n".toList ++
  "      </geometry>\n".toList ++
  "    </visual>\n".toList ++
  "  </link>\n".toList ++
  "</robot>\n".toList

/-- What a call writes: files by their paths. The lines of a Wavefront file are as in `GenerateObjFile`. -/
structure Written where
  objPath : List Char
  mtlPath : List Char
  obj : GenerateObj.Files
  urdfPath : List Char
  urdf : List Char

/-- `GenerateUrdfFile`, src/maliput/utility/generate_urdf.cc:39-66, for a road geometry that is not null, if the files can be
opened; the paths of the first two are those of src/maliput/utility/generate_obj.cc:1100 and 1133. -/
def generateUrdf (env : Env) (f : Features) (rg : RoadGeometry) (id : List Char) (dirpath fileroot : String) :
    Except Stop Written := do
  let obj ← GenerateObj.generateObjFile env f rg fileroot
  return { objPath := dirpath.toList ++ '/' :: obj.objName.toList
           mtlPath := dirpath.toList ++ '/' :: obj.mtlName.toList
           obj := obj
           urdfPath := dirpath.toList ++ '/' :: (fileroot.toList ++ ".urdf".toList)
           urdf := urdfText id (fileroot.toList ++ ".obj".toList) }

end Maliput.Urdf
