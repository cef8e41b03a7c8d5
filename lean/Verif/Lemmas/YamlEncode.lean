import Verif.Lemmas.Monad
import Verif.Lemmas.Map
import Verif.Lemmas.RegistryLoader
import Verif.Model.YamlEncode
import Verif.Spec.YamlEncode

set_option autoImplicit false

/-! Reading what the `encode` functions write. -/
namespace Maliput.Loader

open Maliput.TrafficLights Maliput.Yaml Maliput.Yaml.Spec

theorem asDouble_text {c : Conv} {text : ℚ → String} {q : ℚ} (h : c.toDouble (text q) = some q) :
    Node.asDouble c (some (.scalar (text q))) = .ok q := by
  simp only [Node.asDouble, h]

theorem asPoint_encode {c : Conv} {text : ℚ → String} {p : ℚ × ℚ × ℚ}
    (h : TextsFaithful c text [p.1, p.2.1, p.2.2]) : asPoint c (some (encodePoint text p)) = .ok p := by
  obtain ⟨x, y, z⟩ := p
  have hx := asDouble_text (h x (by simp))
  have hy := asDouble_text (h y (by simp))
  have hz := asDouble_text (h z (by simp))
  simp only [encodePoint, pushedNode, asPoint, hx, hy, hz]
  rfl

theorem asRotation_encode {c : Conv} {text : ℚ → String} {p : ℚ × ℚ × ℚ × ℚ}
    (h : TextsFaithful c text [p.1, p.2.1, p.2.2.1, p.2.2.2]) :
    asRotation c (some (encodeRotation text p)) = .ok p := by
  obtain ⟨w, x, y, z⟩ := p
  have hw := asDouble_text (h w (by simp))
  have hx := asDouble_text (h x (by simp))
  have hy := asDouble_text (h y (by simp))
  have hz := asDouble_text (h z (by simp))
  simp only [encodeRotation, pushedNode, asRotation, hw, hx, hy, hz]
  rfl

theorem asSRange_encode {c : Conv} {text : ℚ → String} {r : SRange} (h0 : 0 ≤ r.s0) (h1 : 0 ≤ r.s1)
    (h : TextsFaithful c text [r.s0, r.s1]) : asSRange c (some (encodeSRange text r)) = .ok r := by
  obtain ⟨x, y⟩ := r
  have hx := asDouble_text (h x (by simp))
  have hy := asDouble_text (h y (by simp))
  have h0' : decide (x ≥ 0) = true := decide_eq_true h0
  have h1' : decide (y ≥ 0) = true := decide_eq_true h1
  simp only [encodeSRange, pushedNode, asSRange, hx, hy]
  change (do
    let r ← (do throwUnless (decide (x ≥ 0)); return (⟨x, 0⟩ : SRange))
    throwUnless (decide (y ≥ 0))
    return { r with s1 := y }) = Except.ok (⟨x, y⟩ : SRange)
  rw [h0', h1']
  rfl

theorem asBulbBox_encode {c : Conv} {text : ℚ → String} {b : BulbBox}
    (h : TextsFaithful c text [b.min.1, b.min.2.1, b.min.2.2, b.max.1, b.max.2.1, b.max.2.2]) :
    asBulbBox c (some (encodeBulbBox text b)) = .ok b := by
  have hmin : asPoint c (some (encodePoint text b.min)) = .ok b.min :=
    asPoint_encode fun q hq => h q (by simp only [List.mem_cons, List.not_mem_nil, or_false] at hq ⊢; tauto)
  have hmax : asPoint c (some (encodePoint text b.max)) = .ok b.max :=
    asPoint_encode fun q hq => h q (by simp only [List.mem_cons, List.not_mem_nil, or_false] at hq ⊢; tauto)
  have r1 : required (some (encodeBulbBox text b)) "min" = .ok (some (encodePoint text b.min)) := rfl
  have r2 : required (some (encodeBulbBox text b)) "max" = .ok (some (encodePoint text b.max)) := rfl
  have n : Node.needMap (some (encodeBulbBox text b)) = .ok () := rfl
  rw [asBulbBox, n, r1, r2]
  change (do return (⟨← asPoint c (some (encodePoint text b.min)), ← asPoint c (some (encodePoint text b.max))⟩ : BulbBox)) =
    Except.ok b
  rw [hmin, hmax]
  rfl

theorem nodes_pushedNode {l : List Doc} (h : l ≠ []) : pushedNode l = .seq l := by
  cases l with
  | nil => exact absurd rfl h
  | cons a t => rfl

theorem nodes_seq' (l : List Doc) : Node.nodes (some (.seq l)) = l.map some := by
  simp only [Node.nodes, Node.items, List.map_map]
  rfl

theorem mapM_scalar {α : Type} (f : Node → Except Err α) (g : α → String) (l : List α)
    (h : ∀ a ∈ l, f (some (.scalar (g a))) = .ok a) :
    ((l.map fun a => Doc.scalar (g a)).map some).mapM f = .ok l := by
  induction l with
  | nil => rfl
  | cons a t ih =>
    simp only [List.map_cons, List.mapM_cons, h a (by simp), ih fun b hb => h b (by simp [hb])]
    rfl

theorem asYieldGroup_encode {ids : List String} (hne : ids ≠ []) (h : ∀ s ∈ ids, s ≠ "") :
    asYieldGroup (some (encodeYieldGroup ids)) = .ok ids := by
  rw [encodeYieldGroup, nodes_pushedNode (by simpa using hne), asYieldGroup]
  have n : Node.needSeq (some (Doc.seq (ids.map .scalar))) = .ok () := rfl
  rw [n, nodes_seq']
  refine mapM_scalar Node.asId id ids fun s hs => ?_
  have : decide (s ≠ "") = true := decide_eq_true (h s hs)
  simp only [Node.asId, Node.asString, id]
  change (do throwUnless (decide (s ≠ "")); return s) = Except.ok s
  rw [this]
  rfl

/-- The text of a bulb state. -/
def stateText : BulbState → String
  | .off => "Off" | .on => "On" | .blinking => "Blinking"

theorem encodeBulbStates_eq (l : List BulbState) :
    encodeBulbStates l = .ok (pushedNode (l.map fun s => .scalar (stateText s))) := by
  have : l.mapM (nameOf bulbStateMapper) = .ok (l.map stateText) := by
    induction l with
    | nil => rfl
    | cons a t ih =>
      rw [List.mapM_cons, ih]
      cases a <;> rfl
  rw [encodeBulbStates, this]
  change Except.ok (pushedNode ((l.map stateText).map Doc.scalar)) = _
  rw [List.map_map]
  rfl

theorem bulbStates_encode {l : List BulbState} (hne : l ≠ []) :
    ∃ d, encodeBulbStates l = .ok d ∧ bulbStates (some (only "States" d)) = .ok l := by
  refine ⟨_, encodeBulbStates_eq l, ?_⟩
  rw [nodes_pushedNode (by simpa using hne)]
  have f : Node.field (some (only "States" (.seq (l.map fun s => .scalar (stateText s))))) "States" =
    .ok (some (.seq (l.map fun s => .scalar (stateText s)))) := rfl
  rw [bulbStates, f]
  change (do
    Node.needSeq (some (Doc.seq (l.map fun s => .scalar (stateText s))))
    (Node.nodes (some (Doc.seq (l.map fun s => .scalar (stateText s))))).mapM (asMapped bulbStateMapper)) = _
  have n : Node.needSeq (some (Doc.seq (l.map fun s => .scalar (stateText s)))) = .ok () := rfl
  rw [n, nodes_seq']
  refine mapM_scalar _ stateText l fun s _ => ?_
  cases s <;> decide +kernel

theorem relatedKeysLoop_encode (ks : List String) : ∀ m : Map String (List String), (∀ k ∈ ks, m.get? k = none) → ks.Nodup →
    ∃ r, relatedKeysLoop m ((ks.map Doc.scalar).map some) = .ok r ∧
      r.entries = m.entries ++ ks.map fun k => (k, []) := by
  induction ks with
  | nil => exact fun m _ _ => ⟨m, rfl, by simp⟩
  | cons k t ih =>
    intro m hm hn
    have hk := hm k (by simp)
    obtain ⟨r, hr, he⟩ := ih (m.emplace k []).1 (fun k' hk' => by
      rw [Map.get?_emplace]
      have : k' ≠ k := fun e => (List.nodup_cons.1 hn).1 (e ▸ hk')
      simp [this, hm k' (by simp [hk'])]) (List.nodup_cons.1 hn).2
    refine ⟨r, ?_, ?_⟩
    · simp only [List.map_cons, relatedKeysLoop, Node.asString]
      exact hr
    · rw [he, Map.emplace_entries hk]
      simp

end Maliput.Loader
