import Verif.Lemmas.Contour

set_option autoImplicit false

/-! Lemmas about the sets of faces that are merged. -/
namespace Maliput.MeshSimplification

open Spec
open Maliput.RouteGraph (Stop lift)

theorem mem_insertSet {x y : Nat} {l : List Nat} : y ∈ insertSet x l ↔ y = x ∨ y ∈ l := by
  induction l with
  | nil => simp [insertSet]
  | cons z l ih =>
    unfold insertSet
    split
    · simp
    · split
      · next h => subst h; simp
      · simp only [List.mem_cons, ih]; tauto

theorem sorted_insertSet {x : Nat} {l : List Nat} (h : l.Pairwise (· < ·)) : (insertSet x l).Pairwise (· < ·) := by
  induction l with
  | nil => simp [insertSet]
  | cons z l ih =>
    rw [List.pairwise_cons] at h
    unfold insertSet
    split
    · next hx =>
      rw [List.pairwise_cons, List.pairwise_cons]
      refine ⟨fun y hy => ?_, h⟩
      rcases List.mem_cons.1 hy with rfl | hy
      · exact hx
      · exact hx.trans (h.1 y hy)
    · split
      · rw [List.pairwise_cons]; exact h
      · rw [List.pairwise_cons]
        refine ⟨fun y hy => ?_, ih h.2⟩
        rcases mem_insertSet.1 hy with rfl | hy
        · omega
        · exact h.1 y hy

theorem length_insertSet {x : Nat} {l : List Nat} (h : x ∉ l) : (insertSet x l).length = l.length + 1 := by
  induction l with
  | nil => simp [insertSet]
  | cons z l ih =>
    simp only [List.mem_cons, not_or] at h
    unfold insertSet
    split
    · rfl
    · rw [if_neg h.1, List.length_cons, ih h.2, List.length_cons]

/-- What the loop over the edges of a face does. -/
def Collected (cop : Nat → Bool) (visited : List Nat) (row : List (Option FaceEdge)) (merge queue : List Nat)
    (r : List Nat × List Nat) : Prop :=
  ∃ new, r.2 = queue ++ new ∧ new.Nodup ∧ r.1.Pairwise (· < ·) ∧ (∀ x, x ∈ r.1 ↔ x ∈ merge ∨ x ∈ new) ∧
    r.1.length = merge.length + new.length ∧
    (∀ x ∈ new, x ∉ merge ∧ x ∉ visited ∧ cop x = true ∧ ∃ i, some (x, i) ∈ row) ∧
    ∀ x i, some (x, i) ∈ row → x ∈ visited ∨ cop x = false ∨ x ∈ r.1

theorem collect_skip {cop : Nat → Bool} {visited : List Nat} {o : Option FaceEdge} {row : List (Option FaceEdge)}
    {merge queue : List Nat} {r : List Nat × List Nat}
    (ho : ∀ x i, o = some (x, i) → x ∈ visited ∨ cop x = false ∨ x ∈ merge)
    (h : Collected cop visited row merge queue r) : Collected cop visited (o :: row) merge queue r := by
  obtain ⟨new, h1, h2, h3, h4, h5, h6, h7⟩ := h
  refine ⟨new, h1, h2, h3, h4, h5, ?_, ?_⟩
  · intro x hx
    obtain ⟨a, b, c, i, d⟩ := h6 x hx
    exact ⟨a, b, c, i, List.mem_cons_of_mem _ d⟩
  · intro x i hm
    rcases List.mem_cons.1 hm with hm | hm
    · rcases ho x i hm.symm with a | a | a
      · exact .inl a
      · exact .inr (.inl a)
      · exact .inr (.inr ((h4 x).2 (.inl a)))
    · exact h7 x i hm

theorem collect_spec (cop : Nat → Bool) (visited : List Nat) (row : List (Option FaceEdge)) :
    ∀ (merge queue : List Nat), merge.Pairwise (· < ·) →
      Collected cop visited row merge queue (collect cop visited row merge queue) := by
  induction row with
  | nil => intro merge queue h; exact ⟨[], by simp [collect, h]⟩
  | cons o row ih =>
    intro merge queue h
    rcases o with _ | ⟨j, e⟩
    · rw [collect]
      exact collect_skip (by simp) (ih merge queue h)
    · rw [collect]
      by_cases h1 : j ∈ merge
      · rw [if_pos h1]
        exact collect_skip (by rintro x i ⟨⟩; exact .inr (.inr h1)) (ih merge queue h)
      by_cases h2 : j ∈ visited
      · rw [if_neg h1, if_pos h2]
        exact collect_skip (by rintro x i ⟨⟩; exact .inl h2) (ih merge queue h)
      by_cases h3 : cop j = true
      · rw [if_neg h1, if_neg h2, if_pos h3]
        obtain ⟨new, g1, g2, g3, g4, g5, g6, g7⟩ := ih (insertSet j merge) (queue ++ [j]) (sorted_insertSet h)
        refine ⟨j :: new, by rw [g1]; simp, ?_, g3, ?_, ?_, ?_, ?_⟩
        · rw [List.nodup_cons]
          exact ⟨fun hj => (g6 j hj).1 (mem_insertSet.2 (.inl rfl)), g2⟩
        · intro x
          rw [g4, mem_insertSet, List.mem_cons]; tauto
        · rw [g5, length_insertSet h1, List.length_cons]; omega
        · intro x hx
          rcases List.mem_cons.1 hx with rfl | hx
          · exact ⟨h1, h2, h3, e, List.mem_cons_self⟩
          · obtain ⟨a, b, c, i, d⟩ := g6 x hx
            exact ⟨fun hm => a (mem_insertSet.2 (.inr hm)), b, c, i, List.mem_cons_of_mem _ d⟩
        · intro x i hm
          rcases List.mem_cons.1 hm with hm | hm
          · cases hm
            exact .inr (.inr ((g4 j).2 (.inl (mem_insertSet.2 (.inl rfl)))))
          · exact g7 x i hm
      · rw [if_neg h1, if_neg h2, if_neg h3]
        exact collect_skip (by rintro x i ⟨⟩; exact .inr (.inl (by simpa using h3))) (ih merge queue h)

/-- The relation through which the faces of a set are connected. -/
def Inside (faces : List (List Nat)) (group : List Nat) (a b : Nat) : Prop :=
  a ∈ group ∧ b ∈ group ∧ Share faces a b

theorem share_symm {faces : List (List Nat)} {f g : Nat} (h : Share faces f g) : Share faces g f := by
  obtain ⟨i, j, h⟩ := h
  exact ⟨j, i, twins_symm h⟩

theorem inside_symm {faces : List (List Nat)} {group : List Nat} {a b : Nat}
    (h : Relation.ReflTransGen (Inside faces group) a b) : Relation.ReflTransGen (Inside faces group) b a := by
  induction h with
  | refl => exact .refl
  | tail _ h ih => exact Relation.ReflTransGen.head ⟨h.2.1, h.1, share_symm h.2.2⟩ ih

theorem inside_mono {faces : List (List Nat)} {group group' : List Nat} (hs : ∀ x ∈ group, x ∈ group') {a b : Nat}
    (h : Relation.ReflTransGen (Inside faces group) a b) : Relation.ReflTransGen (Inside faces group') a b := by
  induction h with
  | refl => exact .refl
  | tail _ h ih => exact ih.tail ⟨hs _ h.1, hs _ h.2.1, h.2.2⟩

/-- What holds of the set, the queue and the visited faces. -/
structure Traversal (faces : List (List Nat)) (cop : Nat → Bool) (v₀ : List Nat) (start : Nat)
    (queue merge visited : List Nat) : Prop where
  mem_start : start ∈ merge
  sorted : merge.Pairwise (· < ·)
  exist : ∀ f ∈ merge, faces.getD f [] ≠ []
  fresh : ∀ f ∈ merge, f ∉ v₀
  coplanar : ∀ f ∈ merge, f = start ∨ cop f = true
  reach : ∀ f ∈ merge, Relation.ReflTransGen (Inside faces merge) start f
  in_queue : ∀ f ∈ queue, f ∈ merge
  queueNodup : queue.Nodup
  mem_visited : ∀ x, x ∈ visited ↔ x ∈ v₀ ∨ (x ∈ merge ∧ x ∉ queue)
  closed : ∀ f ∈ merge, f ∉ queue → ∀ g, Share faces f g → cop g = true → g ∉ v₀ → g ∈ merge

theorem lt_of_getD_ne {faces : List (List Nat)} {f : Nat} (h : faces.getD f [] ≠ []) : f < faces.length := by
  by_contra hc
  exact h (by simp [List.getD, List.getElem?_eq_none (Nat.not_lt.1 hc)])

theorem traverse_ok {faces : List (List Nat)} {inv : Map (Nat × Nat) FaceEdge} {adj : Adjacency}
    (hi : inverseFaceEdges faces = .ok inv) (ha : faceAdjacency faces = .ok adj) {cop : Nat → Bool} {v₀ : List Nat}
    {start : Nat} : ∀ (n : Nat) (queue merge visited : List Nat), Traversal faces cop v₀ start queue merge visited →
      faces.length + queue.length ≤ n + merge.length →
      ∃ merge' visited', traverse adj cop n queue merge visited = .ok (merge', visited') ∧
        Traversal faces cop v₀ start [] merge' visited' := by
  intro n
  induction n with
  | zero =>
    intro queue merge visited ht hn
    rcases queue with _ | ⟨f, queue⟩
    · exact ⟨merge, visited, by rw [traverse], ht⟩
    · exfalso
      have : merge.length ≤ (List.range faces.length).length := by
        refine List.Subperm.length_le (List.Nodup.subperm (ht.sorted.imp fun h => Nat.ne_of_lt h) ?_)
        intro x hx
        exact List.mem_range.2 (lt_of_getD_ne (ht.exist x hx))
      simp at this hn
      omega
  | succ n ih =>
    intro queue merge visited ht hn
    rcases queue with _ | ⟨f, queue⟩
    · exact ⟨merge, visited, by rw [traverse], ht⟩
    · have hf : f ∈ merge := ht.in_queue f List.mem_cons_self
      have hne := ht.exist f hf
      have hrow : adj.at! f = .ok ((List.range (faces.getD f []).length).map fun i => twin inv faces (f, i)) := by
        rw [Map.at!_ok, adjacency_get hi ha, if_neg hne]
      have hshare : ∀ g, (∃ j, some (g, j) ∈ (List.range (faces.getD f []).length).map fun i => twin inv faces (f, i)) ↔
          Share faces f g := by
        intro g
        constructor
        · rintro ⟨j, hj⟩
          obtain ⟨i, hlt, he⟩ := List.mem_map.1 hj
          have hv : Valid faces (f, i) := List.mem_range.1 hlt
          exact ⟨i, j, (twin_some hi hv).1 he⟩
        · rintro ⟨i, j, h⟩
          have hv := (twins_valid h).1
          exact ⟨j, List.mem_map.2 ⟨i, List.mem_range.2 hv, (twin_some hi hv).2 h⟩⟩
      rw [traverse, hrow]
      simp only [lift, bind, Except.bind]
      obtain ⟨new, h1, h2, h3, h4, h5, h6, h7⟩ := collect_spec cop visited
        ((List.range (faces.getD f []).length).map fun i => twin inv faces (f, i)) merge queue ht.sorted
      set r := collect cop visited ((List.range (faces.getD f []).length).map fun i => twin inv faces (f, i)) merge queue
      have hqn := List.nodup_cons.1 ht.queueNodup
      refine ih r.2 r.1 (insertSet f visited) ?_ ?_
      · have hsub : ∀ x ∈ merge, x ∈ r.1 := fun x hx => (h4 x).2 (.inl hx)
        have hnew : ∀ x ∈ new, x ∉ v₀ := fun x hx hv => (h6 x hx).2.1 ((ht.mem_visited x).2 (.inl hv))
        refine ⟨hsub _ ht.mem_start, h3, ?_, ?_, ?_, ?_, ?_, ?_, ?_, ?_⟩
        · intro x hx
          rcases (h4 x).1 hx with hx | hx
          · exact ht.exist x hx
          · obtain ⟨-, -, -, i, hr⟩ := h6 x hx
            obtain ⟨i, j, h⟩ := (hshare x).1 ⟨i, hr⟩
            have hv := (twins_valid h).2
            intro he
            unfold Valid at hv
            simp only [he, List.length_nil] at hv
            omega
        · intro x hx
          rcases (h4 x).1 hx with hx | hx
          · exact ht.fresh x hx
          · exact hnew x hx
        · intro x hx
          rcases (h4 x).1 hx with hx | hx
          · exact ht.coplanar x hx
          · exact .inr (h6 x hx).2.2.1
        · intro x hx
          rcases (h4 x).1 hx with hx' | hx'
          · exact inside_mono hsub (ht.reach x hx')
          · obtain ⟨-, -, -, hr⟩ := h6 x hx'
            exact (inside_mono hsub (ht.reach f hf)).tail ⟨hsub f hf, hx, (hshare x).1 hr⟩
        · intro x hx
          rw [h1, List.mem_append] at hx
          rcases hx with hx | hx
          · exact hsub x (ht.in_queue x (List.mem_cons_of_mem _ hx))
          · exact (h4 x).2 (.inr hx)
        · rw [h1, List.nodup_append]
          refine ⟨hqn.2, h2, fun x hx y hy he => ?_⟩
          subst he
          exact (h6 x hy).1 (ht.in_queue x (List.mem_cons_of_mem _ hx))
        · intro x
          rw [mem_insertSet, ht.mem_visited, h4, h1, List.mem_append, List.mem_cons]
          constructor
          · rintro (rfl | hx | ⟨hx, hq⟩)
            · refine .inr ⟨.inl hf, ?_⟩
              rintro (hq | hq)
              · exact hqn.1 hq
              · exact (h6 x hq).1 hf
            · exact .inl hx
            · refine .inr ⟨.inl hx, ?_⟩
              rintro (hq' | hq')
              · exact hq (.inr hq')
              · exact (h6 x hq').1 hx
          · rintro (hx | ⟨hx | hx, hq⟩)
            · exact .inr (.inl hx)
            · by_cases hxf : x = f
              · exact .inl hxf
              · exact .inr (.inr ⟨hx, by tauto⟩)
            · exact absurd (.inr hx) hq
        · intro x hx hq g hs hc hv
          rw [h1, List.mem_append] at hq
          rcases (h4 x).1 hx with hx | hx
          · by_cases hxf : x = f
            · subst hxf
              obtain ⟨j, hj⟩ := (hshare g).2 hs
              rcases h7 g j hj with h | h | h
              · rcases (ht.mem_visited g).1 h with h | ⟨h, -⟩
                · exact absurd h hv
                · exact hsub g h
              · rw [hc] at h; cases h
              · exact h
            · exact hsub g (ht.closed x hx (by rw [List.mem_cons]; tauto) g hs hc hv)
          · exact absurd (.inr hx) hq
      · rw [h1, h5, List.length_append]
        simp only [List.length_cons] at hn
        omega

/-- What a set of faces that are merged is, if the faces of `v₀` were visited before. -/
structure Group (faces : List (List Nat)) (planes : Planes) (v₀ : List Nat) (start : Nat) (group : List Nat) : Prop where
  mem_start : start ∈ group
  sorted : group.Pairwise (· < ·)
  exist : ∀ f ∈ group, faces.getD f [] ≠ []
  fresh : ∀ f ∈ group, f ∉ v₀
  coplanar : ∀ f ∈ group, f = start ∨ (planes.planar start = true ∧ planes.coplanar start f = true)
  connected : Connected faces group
  maximal : planes.planar start = true → ∀ f ∈ group, ∀ g, Share faces f g → planes.coplanar start g = true → g ∉ v₀ →
    g ∈ group

theorem aggregate_ok {faces : List (List Nat)} {inv : Map (Nat × Nat) FaceEdge} {adj : Adjacency}
    (hi : inverseFaceEdges faces = .ok inv) (ha : faceAdjacency faces = .ok adj) (planes : Planes) {visited : List Nat}
    {start : Nat} (hs : start < faces.length) (hv : start ∉ visited) :
    (planes.tolerancePositive = true ∧ 3 ≤ (faces.getD start []).length ∧ ∃ group visited',
      aggregate faces planes adj start visited = .ok (group, visited') ∧ Group faces planes visited start group ∧
        ∀ x, x ∈ visited' ↔ x ∈ visited ∨ x ∈ group) ∨
      (aggregate faces planes adj start visited = .error (.err .aborts) ∧
        (planes.tolerancePositive = false ∨ (faces.getD start []).length < 3)) := by
  unfold aggregate
  by_cases ht : planes.tolerancePositive = true
  swap
  · right
    have ht : planes.tolerancePositive = false := by simpa using ht
    simp [demand, hs, ht, lift, bind, Except.bind]
  by_cases hl : 3 ≤ (faces.getD start []).length
  swap
  · right
    simp only [demand, hs, ht, hv, lift, bind, Except.bind, ge_iff_le, hl, decide_true, decide_false, if_true,
      not_false_eq_true, true_and, Bool.false_eq_true, if_false]
    right; omega
  left
  refine ⟨ht, hl, ?_⟩
  have hne : faces.getD start [] ≠ [] := by
    intro h; rw [h] at hl; simp at hl
  simp only [demand, hs, ht, hv, lift, bind, Except.bind, ge_iff_le, hl, decide_true, if_true, not_false_eq_true]
  by_cases hp : planes.planar start = true
  · rw [if_pos hp]
    obtain ⟨merge, visited', h1, h2⟩ := traverse_ok hi ha (cop := planes.coplanar start) (v₀ := visited) (start := start)
      (faces.length + 1) [start] [start] visited
      ⟨by simp, by simp, by simpa using hne, by simpa using hv, by simp, by simpa using .refl, by simp, by simp,
        by simp, by simp⟩ (by simp)
    refine ⟨merge, visited', h1, ⟨h2.mem_start, h2.sorted, h2.exist, h2.fresh, ?_, ?_, ?_⟩, ?_⟩
    · intro f hf
      rcases h2.coplanar f hf with h | h
      · exact .inl h
      · exact .inr ⟨hp, h⟩
    · intro f hf g hg
      exact (inside_symm (h2.reach f hf)).trans (h2.reach g hg)
    · intro _ f hf g hsh hc hg
      exact h2.closed f hf (by simp) g hsh hc hg
    · intro x
      rw [h2.mem_visited]; simp
  · rw [if_neg hp]
    refine ⟨[start], _, rfl, ⟨by simp, by simp, by simpa using hne, by simpa using hv, by simp, ?_, ?_⟩, ?_⟩
    · intro f hf g hg
      simp only [List.mem_singleton] at hf hg
      subst hf; subst hg; exact .refl
    · intro h; exact absurd h hp
    · intro x; rw [mem_insertSet]; simp; tauto

end Maliput.MeshSimplification
