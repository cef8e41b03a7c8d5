import Verif.Lemmas.TrafficLights

set_option autoImplicit false

/-! C44 and C54: bulbs, bulb groups, traffic lights and the book of traffic lights. -/
namespace Maliput.Props

open Maliput.Spec Maliput.TrafficLights Maliput.TrafficLights.Spec

/-! ### Bulbs -/

/-- C44: a bulb is constructed exactly if an arrow orientation is given for arrows and only for them; it
has the given states, or off and on if none are given. -/
theorem bulb_make_iff (id : String) (pose : Pose) (color : BulbColor) (type : BulbType) (arrow : Option ℚ)
    (states : Option (List BulbState)) (box : BulbBox) (b : Bulb) :
    Bulb.make id pose color type arrow states box = .ok b ↔
      (type = .arrow ↔ arrow ≠ none) ∧ b.id = id ∧ b.pose = pose ∧ b.box = box ∧ b.color = color ∧ b.type = type ∧
      b.arrowOrientation = arrow ∧
      (∀ l, states = some l → l ≠ [] → b.states = l) ∧
      (states = none ∨ states = some [] → b.states = [.off, .on]) := by
  obtain ⟨i, p, c, t, a, ss, bx⟩ := b
  simp only [Bulb.make, bind_ok, throwUnless_ok, pure_ok, exists_const, Bulb.mk.injEq]
  constructor
  · rintro ⟨h1, h2, rfl, rfl, rfl, rfl, rfl, rfl, rfl⟩
    refine ⟨?_, rfl, rfl, rfl, rfl, rfl, rfl, ?_, ?_⟩
    · cases type <;> cases arrow <;> simp_all
    · rintro l rfl hl
      cases l <;> simp_all
    · rintro (rfl | rfl) <;> rfl
  · rintro ⟨h, rfl, rfl, rfl, rfl, rfl, rfl, h1, h2⟩
    refine ⟨?_, ?_, rfl, rfl, rfl, rfl, rfl, ?_, rfl⟩
    · cases t <;> cases a <;> simp_all
    · cases t <;> cases a <;> simp_all
    · rcases states with _ | (_ | ⟨x, l⟩)
      · exact (h2 (Or.inl rfl)).symm
      · exact (h2 (Or.inr rfl)).symm
      · exact (h1 _ rfl (by simp)).symm

theorem builtBulb_states {b : Bulb} (h : BuiltBulb b) : b.states ≠ [] := by
  obtain ⟨id, pose, color, type, arrow, states, box, h⟩ := h
  obtain ⟨-, -, -, -, -, -, -, h1, h2⟩ := (bulb_make_iff _ _ _ _ _ _ _ _).1 h
  rcases states with _ | (_ | ⟨x, l⟩)
  · rw [h2 (Or.inl rfl)]; simp
  · rw [h2 (Or.inr rfl)]; simp
  · rw [h1 _ rfl (by simp)]; simp

/-- C44: `GetDefaultState` of every bulb returns a state of the bulb: off if it can be off, otherwise
blinking if it can blink, otherwise on. -/
theorem bulb_defaultState (b : Bulb) (h : BuiltBulb b) :
    ∃ s, b.defaultState = .ok s ∧ s ∈ b.states ∧ (.off ∈ b.states → s = .off) ∧
      (.off ∉ b.states → .blinking ∈ b.states → s = .blinking) := by
  have h0 := builtBulb_states h
  by_cases h1 : BulbState.off ∈ b.states
  · exact ⟨.off, by simp [Bulb.defaultState, Bulb.isValidState, h1], h1, fun _ => rfl, fun h => absurd h1 h⟩
  · by_cases h2 : BulbState.blinking ∈ b.states
    · exact ⟨.blinking, by simp [Bulb.defaultState, Bulb.isValidState, h1, h2], h2, fun h => absurd h h1,
        fun _ _ => rfl⟩
    · have h3 : BulbState.on ∈ b.states := by
        obtain ⟨x, hx⟩ := List.exists_mem_of_ne_nil _ h0
        cases x
        · exact absurd hx h1
        · exact hx
        · exact absurd hx h2
      exact ⟨.on, by simp [Bulb.defaultState, Bulb.isValidState, h1, h2, h3], h3, fun h => absurd h h1,
        fun _ h => absurd h h2⟩

/-- C44: `IsValidState` tells the states of the bulb. -/
theorem bulb_isValidState (b : Bulb) (s : BulbState) : b.isValidState s = true ↔ s ∈ b.states := by
  simp [Bulb.isValidState]

/-- A pose. -/
def poseA : Pose := ⟨(1, 2, 3), (1, 0, 0, 0)⟩

example : ∃ b, Bulb.make "b" poseA .red .arrow (some 1) (some [.on, .blinking]) .default = .ok b ∧ BuiltBulb b ∧
    b.defaultState = .ok .blinking := ⟨⟨"b", poseA, .red, .arrow, some 1, [.on, .blinking], .default⟩, by decide +kernel,
  ⟨"b", poseA, .red, .arrow, some 1, some [.on, .blinking], .default, by decide +kernel⟩, by decide +kernel⟩

/-! ### Groups and lights -/

/-- C44: a bulb group is constructed exactly from at least one bulb, no null pointer and no repeated id. -/
theorem bulbGroup_make_iff (id : String) (pose : Pose) (bulbs : List (Option Bulb)) (g : BulbGroup) :
    BulbGroup.make id pose bulbs = .ok g ↔
      g.id = id ∧ g.pose = pose ∧ bulbs = g.bulbs.map some ∧ g.bulbs ≠ [] ∧ g.bulbs.Pairwise (fun b b' => b.id ≠ b'.id) := by
  rw [groupMake_iff, List.Nodup, List.pairwise_map]

/-- C44: a traffic light is constructed exactly from groups without null pointers and without repeated ids. -/
theorem trafficLight_make_iff (id : String) (pose : Pose) (groups : List (Option BulbGroup)) (t : TrafficLight) :
    TrafficLight.make id pose groups = .ok t ↔
      t.id = id ∧ t.pose = pose ∧ groups = t.groups.map some ∧ t.groups.Pairwise (fun g g' => g.id ≠ g'.id) := by
  rw [lightMake_iff, List.Nodup, List.pairwise_map]

/-- C44: `GetBulb` finds exactly the bulb of the group with that id; it is null exactly if there is none. -/
theorem getBulb_iff (g : BulbGroup) (h : BuiltGroup g) (id : String) :
    (∀ b, g.getBulb id = some b ↔ b ∈ g.bulbs ∧ b.id = id) ∧
    (g.getBulb id = none ↔ ∀ b ∈ g.bulbs, b.id ≠ id) := by
  refine ⟨fun b => find?_id_iff h.nodup id b, ?_⟩
  simp [BulbGroup.getBulb, List.find?_eq_none]

/-- C44: `GetBulbGroup` finds exactly the group of the light with that id; it is null exactly if there is none. -/
theorem getBulbGroup_iff (t : TrafficLight) (h : BuiltLight t) (id : String) :
    (∀ g, t.getBulbGroup id = some g ↔ g ∈ t.groups ∧ g.id = id) ∧
    (t.getBulbGroup id = none ↔ ∀ g ∈ t.groups, g.id ≠ id) := by
  refine ⟨fun b => find?_id_iff h.nodup id b, ?_⟩
  simp [TrafficLight.getBulbGroup, List.find?_eq_none]

/-! ### Unique ids -/

/-- C44: a bulb has a unique id exactly if it is in a group that is in a traffic light. -/
theorem uniqueId_iff (b : Bulb) (g : Option BulbGroup) (t : Option TrafficLight) :
    (∃ u, b.uniqueId g t = .ok u) ↔ g ≠ none ∧ t ≠ none := by
  cases g <;> cases t <;> simp [Bulb.uniqueId]

/-- C44: two bulbs of one traffic light with the same unique id are the same bulb of the same group; of
different lights, the lights have the same id. -/
theorem uniqueId_injective (t t' : TrafficLight) (ht : BuiltLight t)
    (g g' : BulbGroup) (b b' : Bulb) (hb : BulbOf t g b) (hb' : BulbOf t' g' b') (u : UniqueBulbId)
    (hu : b.uniqueId (some g) (some t) = .ok u) (hu' : b'.uniqueId (some g') (some t') = .ok u) :
    t.id = t'.id ∧ g.id = g'.id ∧ b.id = b'.id ∧ (t = t' → g = g' ∧ b = b') := by
  simp only [Bulb.uniqueId, Except.ok.injEq] at hu hu'
  subst hu
  simp only [UniqueBulbId.mk.injEq] at hu'
  obtain ⟨h1, h2, h3⟩ := hu'
  refine ⟨h1.symm, h2.symm, h3.symm, ?_⟩
  rintro rfl
  have hg : g = g' := by
    have e1 := ((getBulbGroup_iff t ht g.id).1 g).2 ⟨hb.1, rfl⟩
    have e2 := ((getBulbGroup_iff t ht g.id).1 g').2 ⟨hb'.1, h2⟩
    exact Option.some.inj (e1.symm.trans e2)
  subst hg
  refine ⟨rfl, ?_⟩
  have e1 := ((getBulb_iff g (ht.2 g hb.1) b.id).1 b).2 ⟨hb.2, rfl⟩
  have e2 := ((getBulb_iff g (ht.2 g hb.1) b.id).1 b').2 ⟨hb'.2, h3⟩
  exact Option.some.inj (e1.symm.trans e2)

/-- C44, for a book of traffic lights: following the three ids of a unique id leads to exactly the bulb
with that unique id. -/
theorem uniqueId_resolves (ops : List (Option TrafficLight)) (hops : ∀ t, some t ∈ ops → BuiltLight t)
    (u : UniqueBulbId) (b : Bulb) :
    (∃ t g, (Book.run ops).getTrafficLight u.light = some t ∧ t.getBulbGroup u.group = some g ∧
      g.getBulb u.bulb = some b) ↔
    ∃ t g, t ∈ (Book.run ops).trafficLights ∧ BulbOf t g b ∧ b.uniqueId (some g) (some t) = .ok u := by
  have key : ∀ id t, (Book.run ops).get? id = some t ↔ FirstWithId TrafficLight.id ops t ∧ t.id = id := by
    rw [run_eq]; exact (addTo_fold TrafficLight.id ops).1
  have hb : ∀ id t, (Book.run ops).get? id = some t → BuiltLight t := by
    intro id t h
    obtain ⟨⟨pre, post, h1, -⟩, -⟩ := (key _ _).1 h
    exact hops t (by rw [h1]; simp)
  constructor
  · rintro ⟨t, g, h1, h2, h3⟩
    have ht := hb _ _ h1
    obtain ⟨h4, h5⟩ := ((getBulbGroup_iff t ht _).1 g).1 h2
    obtain ⟨h6, h7⟩ := ((getBulb_iff g (ht.2 g h4) _).1 b).1 h3
    refine ⟨t, g, ?_, ⟨h4, h6⟩, ?_⟩
    · exact List.mem_map.2 ⟨_, Map.get?_eq_some.1 h1, rfl⟩
    · simp only [Bulb.uniqueId]
      rw [h5, h7, ((key _ _).1 h1).2]
  · rintro ⟨t, g, h1, ⟨h4, h6⟩, h3⟩
    obtain ⟨⟨k, t'⟩, h0, rfl⟩ := List.mem_map.1 h1
    have h1 := Map.get?_eq_some.2 h0
    have ht := hb _ _ h1
    simp only [Bulb.uniqueId, Except.ok.injEq] at h3
    subst h3
    refine ⟨t', g, ?_, ((getBulbGroup_iff t' ht _).1 g).2 ⟨h4, rfl⟩,
      ((getBulb_iff g (ht.2 g h4) _).1 b).2 ⟨h6, rfl⟩⟩
    have := ((key _ _).1 h1).2
    simp only [Book.getTrafficLight]
    rw [this]; exact h1

/-- C44: `std::less<UniqueBulbId>` is a strict total order that agrees with `operator==`: sets and maps
keyed by unique ids keep different bulbs apart. -/
theorem uniqueId_less (a b c : UniqueBulbId) :
    a.less a = false ∧ (a.less b = true → b.less c = true → a.less c = true) ∧
    (a = b ↔ a.less b = false ∧ b.less a = false) := by
  have key : ∀ x y : UniqueBulbId, x.less y = true ↔
      x.light < y.light ∨ x.light = y.light ∧ (x.group < y.group ∨ x.group = y.group ∧ x.bulb < y.bulb) := by
    intro x y
    unfold UniqueBulbId.less
    rcases lt_trichotomy x.light y.light with h1 | h1 | h1
    · simp [h1]
    · simp only [h1, lt_irrefl, if_false, false_or, true_and]
      rcases lt_trichotomy x.group y.group with h2 | h2 | h2
      · simp [h2]
      · simp [h2]
      · simp [h2, h2.not_gt, h2.ne']
    · simp [h1, h1.not_gt, h1.ne']
  refine ⟨?_, ?_, ?_⟩
  · rw [← Bool.not_eq_true, key]; simp
  · rw [key, key, key]
    rintro (h1 | ⟨e1, h1 | ⟨e2, h1⟩⟩) (h2 | ⟨e3, h2 | ⟨e4, h2⟩⟩)
    · exact Or.inl (h1.trans h2)
    · exact Or.inl (e3 ▸ h1)
    · exact Or.inl (e3 ▸ h1)
    · exact Or.inl (e1 ▸ h2)
    · exact Or.inr ⟨e1.trans e3, Or.inl (h1.trans h2)⟩
    · exact Or.inr ⟨e1.trans e3, Or.inl (e4 ▸ h1)⟩
    · exact Or.inl (e1 ▸ h2)
    · exact Or.inr ⟨e1.trans e3, Or.inl (e2 ▸ h2)⟩
    · exact Or.inr ⟨e1.trans e3, Or.inr ⟨e2.trans e4, h1.trans h2⟩⟩
  · constructor
    · rintro rfl
      rw [← Bool.not_eq_true, key]; simp
    · rw [← Bool.not_eq_true, ← Bool.not_eq_true, key, key]
      rintro ⟨h1, h2⟩
      push Not at h1 h2
      obtain ⟨l, g, i⟩ := a
      obtain ⟨l', g', i'⟩ := b
      simp only at h1 h2
      obtain rfl := le_antisymm h2.1 h1.1
      obtain rfl := le_antisymm (h2.2 rfl).1 (h1.2 rfl).1
      obtain rfl := le_antisymm ((h2.2 rfl).2 rfl) ((h1.2 rfl).2 rfl)
      rfl

/-- C44: the same for `std::less<UniqueBulbGroupId>`. -/
theorem uniqueGroupId_less (a b c : UniqueBulbGroupId) :
    a.less a = false ∧ (a.less b = true → b.less c = true → a.less c = true) ∧
    (a = b ↔ a.less b = false ∧ b.less a = false) := by
  have key : ∀ x y : UniqueBulbGroupId, x.less y = true ↔
      x.light < y.light ∨ x.light = y.light ∧ x.group < y.group := by
    intro x y
    unfold UniqueBulbGroupId.less
    rcases lt_trichotomy x.light y.light with h1 | h1 | h1
    · simp [h1]
    · simp [h1]
    · simp [h1, h1.not_gt, h1.ne']
  refine ⟨?_, ?_, ?_⟩
  · rw [← Bool.not_eq_true, key]; simp
  · rw [key, key, key]
    rintro (h1 | ⟨e1, h1⟩) (h2 | ⟨e3, h2⟩)
    · exact Or.inl (h1.trans h2)
    · exact Or.inl (e3 ▸ h1)
    · exact Or.inl (e1 ▸ h2)
    · exact Or.inr ⟨e1.trans e3, h1.trans h2⟩
  · constructor
    · rintro rfl
      rw [← Bool.not_eq_true, key]; simp
    · rw [← Bool.not_eq_true, ← Bool.not_eq_true, key, key]
      rintro ⟨h1, h2⟩
      push Not at h1 h2
      obtain ⟨l, g⟩ := a
      obtain ⟨l', g'⟩ := b
      simp only at h1 h2
      obtain rfl := le_antisymm h2.1 h1.1
      obtain rfl := le_antisymm (h2.2 rfl) (h1.2 rfl)
      rfl

/-- The string of a unique id does not identify the bulb: ids that contain the delimiter collide. -/
theorem uniqueId_string_collides : ∃ a b : UniqueBulbId, a ≠ b ∧ a.str = b.str :=
  ⟨⟨"a-b", "c", "d"⟩, ⟨"a", "b-c", "d"⟩, by decide +kernel, by decide +kernel⟩

/-! ### The book -/

/-- C54: after any history of `AddTrafficLight`, `GetTrafficLight(id)` is the first added light with that
id, and null exactly if no light with that id was ever given. -/
theorem lightBook_get (ops : List (Option TrafficLight)) (id : String) :
    (∀ t, (Book.run ops).getTrafficLight id = some t ↔ FirstWithId TrafficLight.id ops t ∧ t.id = id) ∧
    ((Book.run ops).getTrafficLight id = none ↔ ∀ t, some t ∈ ops → t.id ≠ id) := by
  rw [run_eq]
  exact ⟨(addTo_fold TrafficLight.id ops).1 id, (addTo_fold TrafficLight.id ops).2 id⟩

/-- C54: `TrafficLights()` lists exactly the added lights, each once. -/
theorem lightBook_list (ops : List (Option TrafficLight)) :
    (∀ t, t ∈ (Book.run ops).trafficLights ↔ FirstWithId TrafficLight.id ops t) ∧
    (Book.run ops).trafficLights.Nodup := by
  have key := (addTo_fold TrafficLight.id ops).1
  rw [← run_eq] at key
  have hid : ∀ e ∈ (Book.run ops).entries, e.2.id = e.1 := fun e he =>
    ((key e.1 e.2).1 (Map.get?_eq_some.2 he)).2
  constructor
  · intro t
    simp only [Book.trafficLights, List.mem_map]
    constructor
    · rintro ⟨⟨k, t'⟩, h, rfl⟩
      exact ((key k t').1 (Map.get?_eq_some.2 h)).1
    · intro h
      exact ⟨(t.id, t), Map.get?_eq_some.1 ((key _ _).2 ⟨h, rfl⟩), rfl⟩
  · have h1 : (Book.run ops).trafficLights.map (·.id) = (Book.run ops).entries.map (·.1) := by
      simp only [Book.trafficLights, List.map_map]
      exact List.map_congr_left fun e he => hid e he
    exact List.Nodup.of_map (·.id) (h1 ▸ (Book.run ops).nodup)

/-- C54: `AddTrafficLight` succeeds exactly for a light that is not null and whose id is new, and throws
without changing the book otherwise. -/
theorem lightBook_add (b : Book) (o : Option TrafficLight) :
    ((b.add o).2 = .ok () ↔ ∃ t, o = some t ∧ b.getTrafficLight t.id = none) ∧
    ((b.add o).2 ≠ .ok () → b.add o = (b, .error .throws)) := by
  cases o with
  | none => simp [Book.add]
  | some t =>
    simp only [Book.add, Book.getTrafficLight, Option.some.injEq, exists_eq_left']
    by_cases h : b.get? t.id = none
    · rw [(Map.emplace_new t h).1]; simp [h]
    · rw [Map.emplace_old h]; simp [h]

def bulbA : Bulb := ⟨"1", poseA, .red, .round, none, [.off, .on], .default⟩
def bulbB : Bulb := ⟨"2", poseA, .green, .round, none, [.off, .on], .default⟩
def groupA : BulbGroup := ⟨"g1", poseA, [bulbA, bulbB]⟩
def groupB : BulbGroup := ⟨"g2", poseA, [bulbA]⟩
def lightA : TrafficLight := ⟨"l1", poseA, [groupA, groupB]⟩

theorem lightA_built : BuiltLight lightA := by
  have hA : BuiltBulb bulbA := ⟨"1", poseA, .red, .round, none, none, .default, by decide +kernel⟩
  have hB : BuiltBulb bulbB := ⟨"2", poseA, .green, .round, none, some [], .default, by decide +kernel⟩
  refine ⟨⟨"l1", poseA, [some groupA, some groupB], by decide +kernel⟩, ?_⟩
  intro g hg
  simp only [lightA, List.mem_cons, List.not_mem_nil, or_false] at hg
  rcases hg with rfl | rfl
  · refine ⟨⟨"g1", poseA, [some bulbA, some bulbB], by decide +kernel⟩, ?_⟩
    intro b hb
    simp only [groupA, List.mem_cons, List.not_mem_nil, or_false] at hb
    rcases hb with rfl | rfl
    · exact hA
    · exact hB
  · refine ⟨⟨"g2", poseA, [some bulbA], by decide +kernel⟩, ?_⟩
    intro b hb
    simp only [groupB, List.mem_cons, List.not_mem_nil, or_false] at hb
    rcases hb with rfl
    exact hA

example : (∀ t, some t ∈ [none, some lightA, some lightA] → BuiltLight t) ∧
    (Book.run [none, some lightA, some lightA]).trafficLights = [lightA] ∧ BulbOf lightA groupB bulbA ∧
    bulbA.uniqueId (some groupB) (some lightA) = .ok ⟨"l1", "g2", "1"⟩ ∧
    ((Book.run [some lightA]).add (some ⟨"l1", poseA, []⟩)).2 = .error .throws := by
  refine ⟨?_, by decide +kernel, ?_, by decide +kernel, by decide +kernel⟩
  · intro t ht
    simp only [List.mem_cons, List.not_mem_nil, or_false, reduceCtorEq, Option.some.injEq, false_or, or_self] at ht
    subst ht; exact lightA_built
  · simp [BulbOf, lightA, groupB]

end Maliput.Props
