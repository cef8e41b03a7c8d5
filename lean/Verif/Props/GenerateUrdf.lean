import Verif.Model.GenerateUrdf
import Verif.Spec.GenerateUrdf
import Verif.Lemmas.Xml
import Verif.Lemmas.Monad
import Verif.Props.ObjFile

set_option autoImplicit false

/-!
C128: the URDF file describes the road surface.
-/
namespace Maliput.Props

open Maliput.Urdf Maliput.Urdf.Spec
open Maliput.Xml (Plain steps_append steps_value)
open Maliput.GenerateObj (Env Features RoadGeometry)

/-- The text of the file up to the id. -/
private def pre : List Char := "<?xml version=\"1.0\" ?>\n".toList ++ "<robot name=\"".toList

/-- The text of the file from the id to the name of the mesh. -/
private def mid : List Char :=
  "\">\n".toList ++
  "  <link name=\"world\"/>\n".toList ++
  "\n".toList ++
  "  <joint name=\"world_to_road_joint\" type=\"continuous\">\n".toList ++
  "    <origin rpy=\"0 0 0\" xyz=\"0 0 0\"/>\n".toList ++
  "    <parent link=\"world\"/>\n".toList ++
  "    <child link=\"surface\"/>\n".toList ++
  "  </joint>\n".toList ++
  "\n".toList ++
  "  <link name=\"surface\">\n".toList ++
  "    <visual name=\"v1\">\n".toList ++
  "      <origin rpy=\"0 0 0\" xyz=\"0 0 0\"/>\n".toList ++
  "      <geometry>\n".toList ++
  "        <mesh filename=\"".toList

/-- The text of the file after the name of the mesh. -/
private def post : List Char :=
  "\" scale=\"1.0 1.0 1.0\"/>\n".toList ++
  "      </geometry>\n".toList ++
  "    </visual>\n".toList ++
  "  </link>\n".toList ++
  "</robot>\n".toList

private theorem urdfText_eq (id obj : List Char) : urdfText id obj = pre ++ (id ++ (mid ++ (obj ++ post))) := by
  unfold urdfText pre mid post
  repeat rw [List.append_assoc]

private def origin : Xml.Element := .mk "origin".toList [("rpy".toList, "0 0 0".toList), ("xyz".toList, "0 0 0".toList)] []

private def afterMid (id : List Char) : List Xml.Frame :=
  [⟨"geometry".toList, [], []⟩, ⟨"visual".toList, [("name".toList, "v1".toList)], [origin]⟩,
    ⟨"link".toList, [("name".toList, "surface".toList)], []⟩,
    ⟨"robot".toList, [("name".toList, id)], [.mk "link".toList [("name".toList, "world".toList)] [],
      .mk "joint".toList [("name".toList, "world_to_road_joint".toList), ("type".toList, "continuous".toList)]
        [origin, .mk "parent".toList [("link".toList, "world".toList)] [], .mk "child".toList [("link".toList, "surface".toList)] []]]⟩]

private def document (id obj : List Char) : Xml.Element :=
  .mk "robot".toList [("name".toList, id)] [.mk "link".toList [("name".toList, "world".toList)] [],
    .mk "joint".toList [("name".toList, "world_to_road_joint".toList), ("type".toList, "continuous".toList)]
      [origin, .mk "parent".toList [("link".toList, "world".toList)] [], .mk "child".toList [("link".toList, "surface".toList)] []],
    .mk "link".toList [("name".toList, "surface".toList)] [.mk "visual".toList [("name".toList, "v1".toList)] [origin,
      .mk "geometry".toList [] [.mk "mesh".toList [("filename".toList, obj), ("scale".toList, "1.0 1.0 1.0".toList)] []]]]]

private theorem steps_pre : Xml.steps ⟨.content, [], []⟩ pre = some ⟨.value "robot".toList [] "name".toList [], [], []⟩ := by
  rfl

set_option maxRecDepth 20000 in
private theorem steps_mid (id : List Char) : Xml.steps ⟨.value "robot".toList [] "name".toList id, [], []⟩ mid =
    some ⟨.value "mesh".toList [] "filename".toList [], afterMid id, []⟩ := by
  rfl

set_option maxRecDepth 20000 in
private theorem steps_post (id obj : List Char) :
    Xml.steps ⟨.value "mesh".toList [] "filename".toList obj, afterMid id, []⟩ post = some ⟨.content, [], [document id obj]⟩ := by
  rfl

private theorem read_text {id obj : List Char} (hid : Plain id) (hobj : Plain obj) :
    Xml.read (urdfText id obj) = some (document id obj) := by
  rw [Xml.read, urdfText_eq, steps_append, steps_pre, Option.bind_some, steps_append, steps_value hid, Option.bind_some,
    steps_append, List.nil_append, steps_mid, Option.bind_some, steps_append, steps_value hobj, Option.bind_some, List.nil_append,
    steps_post]

private theorem generateUrdf_ok {env : Env} {f : Features} {rg : RoadGeometry} {id : List Char} {dirpath fileroot : String}
    {w : Written} (h : generateUrdf env f rg id dirpath fileroot = .ok w) :
    w.obj.objName = fileroot ++ ".obj" ∧ w.obj.mtllib = fileroot ++ ".mtl" ∧ w.obj.mtlName = fileroot ++ ".mtl" ∧
    w.objPath = dirpath.toList ++ '/' :: w.obj.objName.toList ∧ w.mtlPath = dirpath.toList ++ '/' :: w.obj.mtlName.toList ∧
    w.urdfPath = dirpath.toList ++ '/' :: (fileroot.toList ++ ".urdf".toList) ∧
    w.urdf = urdfText id w.obj.objName.toList := by
  obtain ⟨o, ho, h⟩ := bind_ok.mp h
  have h := pure_ok.mp h
  subst h
  unfold GenerateObj.generateObjFile at ho
  simp only [bind_ok, pure_ok] at ho
  obtain ⟨_, -, _, -, _, -, _, -, _, -, rfl⟩ := ho
  simp [String.toList_append]

/-- C128: the file can be read, and it describes one robot, named by the road geometry, whose link "surface" shows the Wavefront
file and is attached to the link "world" in the origin, if the id and the name of the file need no quoting in XML. -/
theorem urdf_reads_partial {env : Env} {f : Features} {rg : RoadGeometry} {id : List Char} {dirpath fileroot : String} {w : Written}
    (h : generateUrdf env f rg id dirpath fileroot = .ok w) (hid : Plain id) (hfile : Plain fileroot.toList) :
    ∃ e, Xml.read w.urdf = some e ∧
      readRobot e = some ⟨id, [⟨"world".toList, []⟩, ⟨"surface".toList, [w.obj.objName.toList]⟩],
        [⟨"world".toList, "surface".toList⟩]⟩ := by
  obtain ⟨h1, -, -, -, -, -, h2⟩ := generateUrdf_ok h
  rw [h2]
  refine ⟨_, read_text hid ?_, rfl⟩
  rw [h1, String.toList_append]
  intro c hc
  rcases List.mem_append.mp hc with hc | hc
  · exact hfile c hc
  · have : ∀ c ∈ ".obj".toList, c ≠ '"' ∧ c ≠ '<' ∧ c ≠ '&' ∧ (Xml.isBlank c = true → c = ' ') := by decide
    exact this c hc

/-- The three files are in the directory, and each finds the next one by the name it has for it, if the root of their names has
no slash. -/
theorem urdf_paths {env : Env} {f : Features} {rg : RoadGeometry} {id : List Char} {dirpath fileroot : String} {w : Written}
    (h : generateUrdf env f rg id dirpath fileroot = .ok w) (hs : '/' ∉ fileroot.toList) :
    directoryOf w.urdfPath = dirpath.toList ++ ['/'] ∧
    resolve w.urdfPath w.obj.objName.toList = w.objPath ∧ resolve w.objPath w.obj.mtllib.toList = w.mtlPath := by
  obtain ⟨h1, h2, h3, h4, h5, h6, -⟩ := generateUrdf_ok h
  have hd : ∀ (a b : List Char), '/' ∉ b → directoryOf (a ++ '/' :: b) = a ++ ['/'] := by
    intro a b hb
    unfold directoryOf
    have hr : ∀ c ∈ b.reverse, (c != '/') = true := by
      intro c hc
      simp only [bne_iff_ne]
      rintro rfl
      exact hb (by simpa using hc)
    rw [List.reverse_append, List.reverse_cons, List.append_assoc, List.dropWhile_append_of_pos hr]
    simp
  have hm : ∀ s : List Char, '/' ∉ s → '/' ∉ fileroot.toList ++ s := fun s hs' hc => (List.mem_append.mp hc).elim hs hs'
  have hu := hd dirpath.toList _ (hm ".urdf".toList (by decide))
  have ho := hd dirpath.toList _ (hm ".obj".toList (by decide))
  rw [← h6] at hu
  rw [← String.toList_append, ← h1, ← h4] at ho
  refine ⟨hu, ?_, ?_⟩
  · rw [resolve, hu, h4]
    simp
  · rw [resolve, ho, h5, h2, h3]
    simp

/-- An id with a quote, or with an ampersand, gives a file that cannot be read. -/
theorem urdf_not_escaped :
    Xml.read (urdfText "a \"road\"".toList "road.obj".toList) = none ∧ Xml.read (urdfText "a&b".toList "road.obj".toList) = none ∧
    Xml.read (urdfText "a<b".toList "road.obj".toList) = none := by
  refine ⟨?_, ?_, ?_⟩ <;> rfl

/-- With a slash in the root of the names the mesh is not found from the file. -/
theorem urdf_slash :
    let dirpath := "/tmp".toList
    let fileroot := "roads/a".toList
    resolve (dirpath ++ '/' :: (fileroot ++ ".urdf".toList)) (fileroot ++ ".obj".toList) ≠
      dirpath ++ '/' :: (fileroot ++ ".obj".toList) := by
  decide

-- Ordinary ids and names are plain.
example : Plain "Town 01".toList ∧ Plain "town_01".toList ∧ '/' ∉ "town_01".toList ∧ ¬ Plain "a \"road\"".toList := by decide

/-- The files are made of the example road. -/
example (env : Env) : ∃ n w e, generateUrdf { env with bound := n } {} bpRoad "Town 01".toList "/tmp" "road" = .ok w ∧
    Xml.read w.urdf = some e ∧ (readRobot e).map (·.name) = some "Town 01".toList := by
  obtain ⟨files, _, _, _, ⟨n, hn⟩, -⟩ := obj_file env {} bpRoad "road" id bpRoad_good
    ⟨by norm_num, by norm_num, by norm_num⟩ (no_simplification env {} rfl)
  have h := hn n (le_refl n)
  dsimp only at h
  have hw : ∃ w, generateUrdf { env with bound := n } {} bpRoad "Town 01".toList "/tmp" "road" = .ok w := by
    unfold generateUrdf
    rw [h]
    exact ⟨_, rfl⟩
  obtain ⟨w, hw⟩ := hw
  obtain ⟨e, h1, h2⟩ := urdf_reads_partial hw (by decide) (by decide)
  exact ⟨n, w, e, hw, h1, by rw [h2]; rfl⟩

end Maliput.Props
