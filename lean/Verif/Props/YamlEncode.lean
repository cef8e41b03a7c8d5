import Verif.Lemmas.YamlEncode

set_option autoImplicit false

/-!
C132: what the conversions to YAML write is read back by the conversions from YAML as the same value, with the
exceptions stated below.
-/
namespace Maliput.Props

open Maliput.Loader Maliput.TrafficLights Maliput.Yaml Maliput.Yaml.Spec Maliput.Rules

/-- C132: a range, a position, a rotation and a bounding box are read back as themselves, provided that the text
of each of their numbers is. -/
theorem written_numbers_are_read_back {c : Conv} {text : ℚ → String} :
    (∀ r : SRange, 0 ≤ r.s0 → 0 ≤ r.s1 → TextsFaithful c text [r.s0, r.s1] →
      RoundTrip (fun r => .ok (encodeSRange text r)) (asSRange c) r) ∧
    (∀ x y z : ℚ, TextsFaithful c text [x, y, z] →
      RoundTrip (fun p => .ok (encodePoint text p)) (asPoint c) (x, y, z)) ∧
    (∀ w x y z : ℚ, TextsFaithful c text [w, x, y, z] →
      RoundTrip (fun p => .ok (encodeRotation text p)) (asRotation c) (w, x, y, z)) ∧
    (∀ x y z x' y' z' : ℚ, TextsFaithful c text [x, y, z, x', y', z'] →
      RoundTrip (fun b => .ok (encodeBulbBox text b)) (asBulbBox c) ⟨(x, y, z), (x', y', z')⟩) :=
  ⟨fun _ h0 h1 h => ⟨_, rfl, asSRange_encode h0 h1 h⟩, fun _ _ _ h => ⟨_, rfl, asPoint_encode h⟩,
    fun _ _ _ _ h => ⟨_, rfl, asRotation_encode h⟩, fun _ _ _ _ _ _ h => ⟨_, rfl, asBulbBox_encode h⟩⟩

/-- A conversion for the examples. -/
def sampleConv : Conv where
  toDouble s := if s = "zero" then some 0 else if s = "half" then some (1 / 2) else none
  toInt _ := none

/-- The texts of the numbers of the examples. -/
def sampleText (q : ℚ) : String := if q = 0 then "zero" else "half"

example : TextsFaithful sampleConv sampleText [0, 1 / 2] := by
  intro q hq
  simp only [List.mem_cons, List.not_mem_nil, or_false] at hq
  rcases hq with rfl | rfl <;> decide +kernel

example : asSRange sampleConv (some (encodeSRange sampleText ⟨1 / 2, 0⟩)) = .ok ⟨1 / 2, 0⟩ := by decide +kernel

example : asPoint sampleConv (some (encodePoint sampleText (0, 1 / 2, 0))) = .ok (0, 1 / 2, 0) := by decide +kernel

/-- C132: every severity and every type of direction usage except "Undefined" is read back as itself; writing
"Undefined" throws. -/
theorem written_directions_are_read_back :
    (∀ s : DirectionSeverity, RoundTrip encodeDirectionSeverity asDirectionSeverity s) ∧
    (∀ t : DirectionType, RoundTrip encodeDirectionType asDirectionType t ↔ t ≠ .undefined) ∧
    encodeDirectionType .undefined = .error .outOfRange := by
  refine ⟨fun s => ?_, fun t => ?_, rfl⟩
  · cases s
    · exact ⟨.scalar "Strict", rfl, rfl⟩
    · exact ⟨.scalar "Preferred", rfl, rfl⟩
  · cases t
    case undefined => exact ⟨fun ⟨d, h, _⟩ => (nomatch h), fun h => absurd rfl h⟩
    all_goals exact iff_of_true ⟨_, rfl, by decide +kernel⟩ (by decide)

example : encodeDirectionType .parking = .ok (.scalar "Parking") := rfl

/-- C132: a list of rules to yield to is read back as itself exactly if it is not empty; what is written for the
empty list cannot be read. -/
theorem written_yield_groups_are_read_back {ids : List String} (h : ∀ s ∈ ids, s ≠ "") :
    (RoundTrip (fun l => .ok (encodeYieldGroup l)) asYieldGroup ids ↔ ids ≠ []) ∧
    (ids = [] → WrittenUnreadable (fun l => .ok (encodeYieldGroup l)) asYieldGroup ids) := by
  refine ⟨⟨?_, fun hne => ⟨_, rfl, asYieldGroup_encode hne h⟩⟩, ?_⟩
  · rintro ⟨d, hd, hr⟩ rfl
    cases hd
    cases hr
  · rintro rfl
    exact ⟨_, rfl, rfl⟩

example : asYieldGroup (some (encodeYieldGroup ["a", "b"])) = .ok ["a", "b"] := by decide +kernel

/-- C132: a list of bulb states is read back as itself, in the same order, exactly if it is not empty; what is
written for the empty list cannot be read. -/
theorem written_bulb_states_are_read_back (l : List BulbState) :
    (RoundTrip encodeBulbStates (fun n => bulbStates (n.map (only "States"))) l ↔ l ≠ []) ∧
    (l = [] → WrittenUnreadable encodeBulbStates (fun n => bulbStates (n.map (only "States"))) l) := by
  refine ⟨⟨?_, fun hne => bulbStates_encode hne⟩, ?_⟩
  · rintro ⟨d, hd, hr⟩ rfl
    cases hd
    cases hr
  · rintro rfl
    exact ⟨_, rfl, rfl⟩

example : ∃ d, encodeBulbStates [.blinking, .off] = .ok d ∧
    bulbStates (some (only "States" d)) = .ok [.blinking, .off] :=
  ⟨_, rfl, by decide +kernel⟩

/-- C132: of the related rules (or the related ids) of a type of rules exactly the keys, in the same order, are
read back, each without ids; what is written for no keys cannot be read. -/
theorem written_related_keys_are_read_back (key : String) (m : Map String (List String)) :
    (m.keys ≠ [] → ∃ r, getRelatedKeys (some (only key (encodeRelatedKeys m))) key = .ok r ∧
      r.entries = m.keys.map fun k => (k, [])) ∧
    (m.keys = [] → getRelatedKeys (some (only key (encodeRelatedKeys m))) key = .error .throws) := by
  have f : ∀ d, Node.field (some (only key d)) key = .ok (some d) := fun d => by
    simp only [only, Node.field, Yaml.lookup, List.find?_cons, decide_true, Option.map_some]
  refine ⟨fun h => ?_, fun h => ?_⟩
  · obtain ⟨r, hr, he⟩ := relatedKeysLoop_encode m.keys .empty (fun _ _ => rfl) m.nodup
    refine ⟨r, ?_, by simpa [Map.empty] using he⟩
    rw [encodeRelatedKeys, nodes_pushedNode (by simpa using h), getRelatedKeys, f]
    change (do
      Node.needSeq (some (Doc.seq (m.keys.map .scalar)))
      relatedKeysLoop .empty (Node.nodes (some (Doc.seq (m.keys.map .scalar))))) = _
    have n : Node.needSeq (some (Doc.seq (m.keys.map .scalar))) = .ok () := rfl
    rw [n, nodes_seq']
    exact hr
  · rw [encodeRelatedKeys, h, getRelatedKeys, f]
    rfl

example : (⟨[("Yield Group", ["r1", "r2"])], by decide⟩ : Map String (List String)).keys ≠ [] := by decide

/-- C132: not everything written can be read: what is written for a colour, a type or a single state of a bulb is
a sequence, which is never read as one. -/
theorem written_names_unreadable :
    (∀ a : BulbColor, WrittenUnreadable (encodePushed bulbColorMapper) (asMapped bulbColorMapper) a) ∧
    (∀ a : BulbType, WrittenUnreadable (encodePushed bulbTypeMapper) (asMapped bulbTypeMapper) a) ∧
    (∀ a : BulbState, WrittenUnreadable (encodePushed bulbStateMapper) (asMapped bulbStateMapper) a) := by
  refine ⟨fun a => ?_, fun a => ?_, fun a => ?_⟩ <;> cases a <;> exact ⟨_, rfl, rfl⟩

example : ∃ d, encodePushed bulbColorMapper .red = .ok d ∧ asMapped bulbColorMapper (some d) = .error .throws :=
  ⟨.seq [.scalar "Red"], rfl, rfl⟩

end Maliput.Props
