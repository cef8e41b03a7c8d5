import Verif.Lemmas.TrafficLightLoader
import Verif.Props.RulebookLoader
import Verif.Props.TrafficLights

set_option autoImplicit false

/-!
C79: loading a traffic light document.  `c` is the conversion of texts to numbers.
-/
namespace Maliput.Props

open Maliput.TrafficLights Maliput.TrafficLights.Spec Maliput.Loader Maliput.Loader.Spec Maliput.Yaml
  Maliput.Yaml.Spec

/-- C79: a document is loaded exactly if it is a sequence of descriptions of valid traffic lights with
distinct ids, and then the book is what adding these lights to an empty book gives (so that C54 describes
every query). -/
theorem light_loader_iff (c : Conv) (root : Doc) (b : TrafficLights.Book) :
    loadTrafficLights c root = .ok b ↔ ∃ docs lights, HasField root "TrafficLights" (.seq docs) ∧
      List.Forall₂ (SaysLight c) docs lights ∧ (∀ t ∈ lights, ValidLight t) ∧ (lights.map (·.id)).Nodup ∧
      b = Book.run (lights.map some) := by
  rw [loadTrafficLights_ok]
  constructor
  · rintro ⟨docs, lights, h1, h2, h3, h4, h5⟩
    refine ⟨docs, lights, h1, h2, h3, h4, map_ext ?_⟩
    rw [h5, Book.run, run_lights]
    · simp [Map.empty]
    · simpa [Map.empty] using h4
  · rintro ⟨docs, lights, h1, h2, h3, h4, rfl⟩
    refine ⟨docs, lights, h1, h2, h3, h4, ?_⟩
    rw [Book.run, run_lights]
    · simp [Map.empty]
    · simpa [Map.empty] using h4

/-- C79: the loaded book contains the described traffic lights and no other, finds each by its id, and all
their parts could have been constructed by the user (so that C44 describes them). -/
theorem light_loader_queries (c : Conv) (root : Doc) (b : TrafficLights.Book) (h : loadTrafficLights c root = .ok b) :
    ∃ docs, HasField root "TrafficLights" (.seq docs) ∧ List.Forall₂ (SaysLight c) docs b.trafficLights ∧
      (∀ id t, b.getTrafficLight id = some t ↔ t ∈ b.trafficLights ∧ t.id = id) ∧
      ∀ t ∈ b.trafficLights, BuiltLight t := by
  obtain ⟨docs, lights, h1, h2, h3, h4, h5⟩ := loadTrafficLights_ok.1 h
  have hl : b.trafficLights = lights := by
    rw [Book.trafficLights, h5, List.map_map]
    simp [Function.comp_def]
  rw [hl]
  refine ⟨docs, h1, h2, fun id t => ?_, fun t ht => ?_⟩
  · rw [Book.getTrafficLight, Map.get?_eq_some, h5, List.mem_map]
    constructor
    · rintro ⟨t', ht, he⟩
      obtain ⟨rfl, rfl⟩ := Prod.mk.inj he
      exact ⟨ht, rfl⟩
    · rintro ⟨ht, rfl⟩
      exact ⟨t, ht, rfl⟩
  · obtain ⟨d, -, hd⟩ := forall₂_mem_right h2 ht
    exact hd.built (h3 t ht)

/-- C79: loading any document either succeeds or throws. -/
theorem light_loader_errors (c : Conv) (root : Doc) (e : Err) (h : loadTrafficLights c root = .error e) :
    e = .throws :=
  OnlyThrows.loadTrafficLights c root e h

/-! ### A document -/

/-- A sequence of scalars. -/
def docSeq (l : List String) : Doc := .seq (l.map .scalar)

/-- The key "Pose". -/
def docPose (frame : String) : String × Doc :=
  ("Pose", docMap [("position_" ++ frame, docSeq ["1", "0", "5"]), ("orientation_" ++ frame, docSeq ["1", "0", "0", "0"])])

/-- A traffic light with a red round bulb and a green arrow that has no state "Off" (`states`). -/
def lightDoc (id arrow : String) (states : List String) : Doc :=
  docMap [("ID", .scalar id), docPose "road_network", ("BulbGroups", .seq [docMap [("ID", .scalar "g"),
    docPose "traffic_light", ("Bulbs", .seq [
      docMap [("ID", .scalar "red"), docPose "bulb_group", ("Color", .scalar "Red"), ("Type", .scalar "Round")],
      docMap [("ID", .scalar "arrow"), docPose "bulb_group", ("Color", .scalar "Green"), ("Type", .scalar "Arrow"),
        ("ArrowOrientation", .scalar arrow), ("States", docSeq states),
        ("BoundingBox", docMap [("min", docSeq ["0", "0", "0"]), ("max", docSeq ["1", "1", "5"])])]])]])]

/-- A document with traffic lights. -/
def lightsDoc (l : List Doc) : Doc := docMap [("TrafficLights", .seq l)]

/-- The pose of the key "Pose" above. -/
def docPoseOf : Pose := ⟨(1, 0, 5), (1, 0, 0, 0)⟩

/-- The red bulb of the documents. -/
def docRed : Bulb := ⟨"red", docPoseOf, .red, .round, none, [.on, .off], .default⟩

/-- The arrow of the documents. -/
def docArrow : Bulb :=
  ⟨"arrow", docPoseOf, .green, .arrow, some 5, [.on, .blinking], ⟨(0, 0, 0), (1, 1, 5)⟩⟩

/-- The traffic light of the documents. -/
def docLight (id : String) : TrafficLight := ⟨id, docPoseOf, [⟨"g", docPoseOf, [docRed, docArrow]⟩]⟩

/-- Two lights are loaded; an unknown state or orientation, a repeated light and an empty id throw. -/
theorem lightsDoc_loads :
    loadTrafficLights docConv (lightsDoc [lightDoc "l" "5" ["On", "Blinking"], lightDoc "m" "5" ["On", "Blinking"]]) =
      .ok (.ofList [("l", docLight "l"), ("m", docLight "m")]) ∧
    loadTrafficLights docConv (lightsDoc [lightDoc "l" "5" ["On", "Flashing"]]) = .error .throws ∧
    loadTrafficLights docConv (lightsDoc [lightDoc "l" "north" ["On"]]) = .error .throws ∧
    loadTrafficLights docConv (lightsDoc [lightDoc "l" "5" ["On"], lightDoc "l" "5" ["On"]]) = .error .throws ∧
    loadTrafficLights docConv (lightsDoc [lightDoc "" "5" ["On"]]) = .error .throws := by
  decide +kernel

/-- The conditions of `light_loader_iff` are met by that document. -/
example : ∃ docs lights, HasField (lightsDoc [lightDoc "l" "5" ["On", "Blinking"]]) "TrafficLights" (.seq docs) ∧
    List.Forall₂ (SaysLight docConv) docs lights ∧ (∀ t ∈ lights, ValidLight t) ∧ (lights.map (·.id)).Nodup ∧
    lights ≠ [] := by
  have h : loadTrafficLights docConv (lightsDoc [lightDoc "l" "5" ["On", "Blinking"]]) =
      .ok (.ofList [("l", docLight "l")]) := by decide +kernel
  obtain ⟨docs, lights, h1, h2, h3, h4, h5⟩ := (light_loader_iff _ _ _).1 h
  refine ⟨docs, lights, h1, h2, h3, h4, ?_⟩
  rintro rfl
  have : (Map.ofList [("l", docLight "l")]).entries = [] := by rw [h5]; rfl
  exact absurd this (by decide +kernel)

end Maliput.Props
