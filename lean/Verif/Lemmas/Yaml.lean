import Verif.Lemmas.Monad
import Verif.Spec.Yaml

set_option autoImplicit false

/-! What the node functions accept, in terms of the specification of documents. -/
namespace Maliput.Yaml

open Spec

theorem lookup_some {l : List (Doc × Doc)} {k : String} {v : Doc} :
    lookup l k = some v ↔ HasField (.map l) k v := by
  rw [lookup, Option.map_eq_some_iff]
  constructor
  · rintro ⟨e, he, rfl⟩
    rw [List.find?_eq_some_iff_append] at he
    obtain ⟨hp, as, bs, rfl, hn⟩ := he
    obtain ⟨e1, e2⟩ := e
    cases e1 <;> simp at hp
    subst hp
    refine ⟨as, bs, rfl, ?_⟩
    intro e he h
    have := hn e he
    rw [h] at this
    simp at this
  · rintro ⟨as, bs, h, hn⟩
    injection h with h
    subst h
    refine ⟨(.scalar k, v), ?_, rfl⟩
    rw [List.find?_eq_some_iff_append]
    refine ⟨by simp, as, bs, rfl, ?_⟩
    intro e he
    have := hn e he
    split
    · rename_i s hs
      have : s ≠ k := fun hk => this (by rw [hs, hk])
      simp [this]
    · rfl

theorem lookup_none {l : List (Doc × Doc)} {k : String} : lookup l k = none ↔ LacksField (.map l) k := by
  rw [lookup, Option.map_eq_none_iff, List.find?_eq_none]
  constructor
  · intro h
    refine ⟨l, rfl, fun e he hk => ?_⟩
    have := h e he
    rw [hk] at this
    simp at this
  · rintro ⟨l', h, hn⟩ e he
    injection h with h
    subst h
    have := hn e he
    split
    · rename_i s hs
      have : s ≠ k := fun hk => this (by rw [hs, hk])
      simp [this]
    · simp

theorem lacksField_map {l : List (Doc × Doc)} {k : String} :
    LacksField (.map l) k ↔ ∀ e ∈ l, e.1 ≠ .scalar k := by
  constructor
  · rintro ⟨l', h, hn⟩
    injection h with h
    subst h
    exact hn
  · exact fun h => ⟨l, rfl, h⟩

theorem Spec.HasField.unique {d v w : Doc} {k : String} (h : HasField d k v) (h' : HasField d k w) : v = w := by
  obtain ⟨l, rfl⟩ : ∃ l, d = .map l := by
    obtain ⟨as, bs, h, -⟩ := h
    exact ⟨_, h⟩
  have h1 := lookup_some.2 h
  have h2 := lookup_some.2 h'
  rw [h1] at h2
  exact Option.some.inj h2

theorem Spec.HasField.not_lacks {d v : Doc} {k : String} (h : HasField d k v) (h' : LacksField d k) : False := by
  obtain ⟨as, bs, rfl, hn⟩ := h
  obtain ⟨l, hl, hk⟩ := h'
  injection hl with hl
  subst hl
  exact hk (.scalar k, v) (by simp) rfl

theorem Spec.HasField.mem {l : List (Doc × Doc)} {k : String} {v : Doc} (h : HasField (.map l) k v) :
    (.scalar k, v) ∈ l := by
  obtain ⟨as, bs, h, -⟩ := h
  injection h with h
  subst h
  simp

theorem Spec.HasField.isMap {d : Doc} {k : String} {v : Doc} (h : HasField d k v) : ∃ l, d = .map l := by
  obtain ⟨as, bs, h, -⟩ := h
  exact ⟨_, h⟩

theorem field_some_ok {l : List (Doc × Doc)} {k : String} {n : Node} :
    Node.field (some (.map l)) k = .ok n ↔
      (n = none ∧ LacksField (.map l) k) ∨ ∃ v, n = some v ∧ HasField (.map l) k v := by
  rw [Node.field]
  cases n with
  | none => simp [lookup_none]
  | some v => simp [lookup_some]

theorem needMap_ok {n : Node} {u : Unit} : Node.needMap n = .ok u ↔ ∃ l, n = some (.map l) := by
  rw [Node.needMap]
  rcases n with _ | d
  · simp [Node.isMap, bind, Except.bind]
  · cases d <;> simp [Node.isMap, bind, Except.bind, throwUnless]

theorem needSeq_ok {n : Node} {u : Unit} : Node.needSeq n = .ok u ↔ ∃ l, n = some (.seq l) := by
  rw [Node.needSeq]
  rcases n with _ | d
  · simp [Node.isSeq, bind, Except.bind]
  · cases d <;> simp [Node.isSeq, bind, Except.bind, throwUnless]

theorem nodes_seq (l : List Doc) : Node.nodes (some (.seq l)) = l.map some := by
  simp [Node.nodes, Node.items, Function.comp_def]

theorem asString_ok {d : Doc} {s : String} : Node.asString (some d) = .ok s ↔ Reads d s := by
  cases d <;> simp [Node.asString, Reads, eq_comm]

theorem asId_ok {d : Doc} {s : String} : Node.asId (some d) = .ok s ↔ Reads d s ∧ s ≠ "" := by
  rw [Node.asId]
  simp only [bind_ok, throwUnless_ok, pure_ok, asString_ok, decide_eq_true_eq]
  constructor
  · rintro ⟨t, h, -, hn, rfl⟩
    exact ⟨h, hn⟩
  · rintro ⟨h, hn⟩
    exact ⟨s, h, (), hn, rfl⟩

theorem asDouble_ok {c : Conv} {d : Doc} {q : ℚ} : Node.asDouble c (some d) = .ok q ↔ ReadsNumber c d q := by
  cases d with
  | scalar s => cases h : c.toDouble s <;> simp [Node.asDouble, ReadsNumber, h]
  | _ => simp [Node.asDouble, ReadsNumber]

theorem asInt_ok {c : Conv} {d : Doc} {q : ℤ} : Node.asInt c (some d) = .ok q ↔ ReadsInt c d q := by
  cases d with
  | scalar s => cases h : c.toInt s <;> simp [Node.asInt, ReadsInt, h]
  | _ => simp [Node.asInt, ReadsInt]

theorem mapM_seq {β : Type} {f : Node → Except Err β} {l : List Doc} {r : List β} :
    (Node.nodes (some (.seq l))).mapM f = .ok r ↔ List.Forall₂ (fun d b => f (some d) = .ok b) l r := by
  rw [nodes_seq]
  constructor
  · intro h
    have := mapM_ok h
    rwa [List.forall₂_map_left_iff] at this
  · intro h
    exact mapM_of_forall₂ (List.forall₂_map_left_iff.2 h)

theorem Spec.Reads.unique {d : Doc} {s t : String} (h : Reads d s) (h' : Reads d t) : s = t := by
  rcases h with rfl | ⟨rfl, rfl⟩ <;> rcases h' with h' | ⟨h', h''⟩
  · injection h'
  · cases h'
  · cases h'
  · exact h''.symm

/-- The computation fails with an exception only. -/
def OnlyThrows {α : Type} (x : Except Err α) : Prop := ∀ e, x = .error e → e = .throws

theorem OnlyThrows.bind {α β : Type} {x : Except Err α} {f : α → Except Err β} (hx : OnlyThrows x)
    (hf : ∀ a, x = .ok a → OnlyThrows (f a)) : OnlyThrows (x >>= f) := by
  intro e h
  cases x with
  | error e' =>
    have h : Except.error e' = Except.error e := h
    injection h with h
    exact hx e (by rw [h])
  | ok a => exact hf a rfl e h

theorem OnlyThrows.ok {α : Type} (a : α) : OnlyThrows (.ok a : Except Err α) := by
  intro e h
  cases h

theorem OnlyThrows.pure {α : Type} (a : α) : OnlyThrows (pure a : Except Err α) := by
  intro e h
  cases h

theorem OnlyThrows.throws {α : Type} : OnlyThrows (.error .throws : Except Err α) := by
  intro e h
  injection h with h
  exact h.symm

theorem OnlyThrows.throwUnless (b : Bool) : OnlyThrows (throwUnless b) := by
  cases b
  · exact OnlyThrows.throws
  · exact OnlyThrows.ok ()

theorem OnlyThrows.mapM {α β : Type} {f : α → Except Err β} (hf : ∀ a, OnlyThrows (f a)) (l : List α) :
    OnlyThrows (l.mapM f) := by
  induction l with
  | nil => exact OnlyThrows.pure _
  | cons a l ih =>
    rw [List.mapM_cons]
    exact (hf a).bind fun _ _ => ih.bind fun _ _ => OnlyThrows.pure _

theorem OnlyThrows.forM {α : Type} {f : α → Except Err Unit} {l : List α} (hf : ∀ a ∈ l, OnlyThrows (f a)) :
    OnlyThrows (l.forM f) := by
  induction l with
  | nil => exact OnlyThrows.pure _
  | cons a l ih =>
    show OnlyThrows (f a >>= fun _ => l.forM f)
    exact (hf a (by simp)).bind fun _ _ => ih fun b hb => hf b (by simp [hb])

theorem OnlyThrows.foldlM {α β : Type} {f : β → α → Except Err β} (hf : ∀ b a, OnlyThrows (f b a)) (l : List α)
    (b : β) : OnlyThrows (l.foldlM f b) := by
  induction l generalizing b with
  | nil => exact OnlyThrows.pure _
  | cons a l ih =>
    rw [List.foldlM_cons]
    exact (hf b a).bind fun _ _ => ih _

theorem OnlyThrows.field (n : Node) (k : String) : OnlyThrows (n.field k) := by
  rcases n with _ | d
  · exact OnlyThrows.throws
  · cases d
    · exact OnlyThrows.ok _
    · exact OnlyThrows.throws
    · exact OnlyThrows.ok _
    · exact OnlyThrows.ok _

theorem OnlyThrows.isMap (n : Node) : OnlyThrows n.isMap := by
  rcases n with _ | d
  · exact OnlyThrows.throws
  · cases d <;> exact OnlyThrows.ok _

theorem OnlyThrows.isSeq (n : Node) : OnlyThrows n.isSeq := by
  rcases n with _ | d
  · exact OnlyThrows.throws
  · cases d <;> exact OnlyThrows.ok _

theorem OnlyThrows.needMap (n : Node) : OnlyThrows n.needMap :=
  (OnlyThrows.isMap n).bind fun _ _ => OnlyThrows.throwUnless _

theorem OnlyThrows.needSeq (n : Node) : OnlyThrows n.needSeq :=
  (OnlyThrows.isSeq n).bind fun _ _ => OnlyThrows.throwUnless _

theorem OnlyThrows.size (n : Node) : OnlyThrows n.size := by
  rcases n with _ | d
  · exact OnlyThrows.throws
  · cases d <;> exact OnlyThrows.ok _

theorem OnlyThrows.asString (n : Node) : OnlyThrows n.asString := by
  rcases n with _ | d
  · exact OnlyThrows.throws
  · cases d
    · exact OnlyThrows.ok _
    · exact OnlyThrows.ok _
    · exact OnlyThrows.throws
    · exact OnlyThrows.throws

theorem OnlyThrows.asId (n : Node) : OnlyThrows n.asId :=
  (OnlyThrows.asString n).bind fun _ _ => (OnlyThrows.throwUnless _).bind fun _ _ => OnlyThrows.pure _

theorem OnlyThrows.asDouble (c : Conv) (n : Node) : OnlyThrows (n.asDouble c) := by
  unfold Node.asDouble
  split
  · split
    · exact OnlyThrows.ok _
    · exact OnlyThrows.throws
  · exact OnlyThrows.throws

theorem OnlyThrows.asInt (c : Conv) (n : Node) : OnlyThrows (n.asInt c) := by
  unfold Node.asInt
  split
  · split
    · exact OnlyThrows.ok _
    · exact OnlyThrows.throws
  · exact OnlyThrows.throws

/-- Closes `OnlyThrows` goals for straight-line code; `t` closes the goals about other functions. -/
macro "only_throws" "[" ts:term,* "]" : tactic => do
  let alts ← ts.getElems.mapM fun t => `(tactic| exact $t)
  `(tactic| repeat' first
    | exact OnlyThrows.throws | exact OnlyThrows.ok _ | exact OnlyThrows.pure _ | exact OnlyThrows.throwUnless _
    | exact OnlyThrows.field _ _ | exact OnlyThrows.isMap _ | exact OnlyThrows.isSeq _
    | exact OnlyThrows.needMap _ | exact OnlyThrows.needSeq _ | exact OnlyThrows.size _
    | exact OnlyThrows.asString _ | exact OnlyThrows.asId _ | exact OnlyThrows.asDouble _ _
    | exact OnlyThrows.asInt _ _ $[| ($alts:tactic)]*
    | refine OnlyThrows.bind ?_ (fun _ _ => ?_)
    | refine OnlyThrows.mapM (fun _ => ?_) _ | refine OnlyThrows.forM (fun _ _ => ?_)
    | refine OnlyThrows.foldlM (fun _ _ => ?_) _ _ | split)

end Maliput.Yaml
