import Verif.Lemmas.Aggregate
import Verif.Lemmas.DouglasPeucker
import Verif.Lemmas.Mesh

set_option autoImplicit false

/-! Lemmas about the simplification of meshes. -/
namespace Maliput.MeshSimplification

open Spec
open Maliput.RouteGraph (Stop lift)
open Maliput.Mesh
open Maliput.Mesh.Spec (Built)

/-- The sets of faces that are merged one after the other, if the faces of `v` were visited before. -/
inductive Groups (faces : List (List Nat)) (planes : Planes) : List Nat → List (List Nat) → Prop
  | nil (v : List Nat) (h : ∀ x < faces.length, x ∈ v) : Groups faces planes v []
  | cons (v v' : List Nat) (start : Nat) (g : List Nat) (gs : List (List Nat)) (hg : Group faces planes v start g)
      (hfirst : ∀ x < start, x ∈ v) (hv : ∀ x, x ∈ v' ↔ x ∈ v ∨ x ∈ g) (h : Groups faces planes v' gs) :
      Groups faces planes v (g :: gs)

section
variable {V N : Type} [DecidableEq V] [DecidableEq N]

omit [DecidableEq V] [DecidableEq N] in
theorem vertexIndices_getD {m : GeoMesh V N} {fs : List (List (V × N))}
    (h : m.faces.map (decode m.vertices.vector m.normals.vector) = fs.map wanted) (f : Nat) :
    ((vertexIndices m).getD f []).length = (fs.getD f []).length := by
  have := congrArg (fun l => ((l.getD f [])).length) h
  simp only [List.getD, List.getElem?_map, vertexIndices] at this ⊢
  rcases h1 : m.faces[f]? with _ | a <;> rcases h2 : fs[f]? with _ | b <;>
    simp [h1, h2, decode, wanted] at this ⊢ <;> assumption

/-- A vertex of a face. -/
theorem vertexAt_ok {m : GeoMesh V N} {fs : List (List (V × N))} (h : Holds m fs) {e : FaceEdge}
    (hv : Valid (vertexIndices m) e) :
    ∃ vn, (fs[e.1]?.bind (·[e.2]?)) = some vn ∧ vertexAt m e = .ok vn := by
  have hf := congrArg (fun l => l[e.1]?) h.faces
  simp only [List.getElem?_map] at hf
  unfold Valid at hv
  rw [vertexIndices, List.getD, List.getElem?_map] at hv
  rcases h1 : m.faces[e.1]? with _ | face
  · rw [h1] at hv; simp at hv
  · rcases h2 : fs[e.1]? with _ | l
    · rw [h1, h2] at hf; simp at hf
    · rw [h1, h2] at hf
      simp only [Option.map_some, Option.some.injEq] at hf
      have hd := deref_face hf
      rw [h1] at hv
      simp only [Option.map_some, Option.getD_some, List.length_map] at hv
      have h3 := mapM_ok hd
      have hlen := h3.length_eq
      refine ⟨l[e.2]'(by omega), by simp [List.getElem?_eq_getElem (show e.2 < l.length by omega)], ?_⟩
      unfold vertexAt
      rw [h1]
      simp only [List.getElem?_eq_getElem hv]
      exact List.forall₂_iff_get.1 h3 |>.2 e.2 hv (by omega)

/-- The face that merging a set of faces makes. -/
def Merged (m : GeoMesh V N) (fs : List (List (V × N))) (simp : List FaceEdge → List FaceEdge) (group : List Nat)
    (face : List (V × N)) : Prop :=
  ∃ c, c ≠ [] ∧ c.Nodup ∧ (∀ e ∈ c, Boundary (vertexIndices m) group e) ∧ Closed (vertexIndices m) c ∧
    List.Forall₂ (fun e vn => (fs[e.1]?.bind (·[e.2]?)) = some vn) (simp c) face

theorem mergeFaces_ok {m : GeoMesh V N} {fs : List (List (V × N))} (hm : Holds m fs)
    {inv : Map (Nat × Nat) FaceEdge} {adj : Adjacency} (hi : inverseFaceEdges (vertexIndices m) = .ok inv)
    (ha : faceAdjacency (vertexIndices m) = .ok adj) {simp : List FaceEdge → List FaceEdge}
    (hs : ∀ c, ∀ e ∈ simp c, e ∈ c) {group : List Nat} (hne : ∀ f ∈ group, (vertexIndices m).getD f [] ≠ []) :
    (∃ face, mergeFaces m simp group adj = .ok face ∧ Merged m fs simp group face) ∨
      (mergeFaces m simp group adj = .error (.err .aborts) ∧ ∀ e, ¬ Boundary (vertexIndices m) group e) := by
  rcases contour_spec hi ha hne with ⟨c, h1, h2, h3, h4, h5⟩ | ⟨h1, h2⟩
  · left
    have : ∀ l : List FaceEdge, (∀ e ∈ l, e ∈ c) → ∃ face,
        (l.mapM fun e => lift (vertexAt m e)) = (.ok face : Except Stop _) ∧
        List.Forall₂ (fun e vn => (fs[e.1]?.bind (·[e.2]?)) = some vn) l face := by
      intro l
      induction l with
      | nil => intro _; exact ⟨[], rfl, .nil⟩
      | cons e l ih =>
        intro hl
        obtain ⟨face, h6, h7⟩ := ih fun e he => hl e (List.mem_cons_of_mem _ he)
        obtain ⟨vn, h8, h9⟩ := vertexAt_ok hm (Boundary.inRegion (h4 e (hl e List.mem_cons_self))).1
        refine ⟨vn :: face, ?_, .cons h8 h7⟩
        rw [List.mapM_cons, h9, h6]
        rfl
    obtain ⟨face, h6, h7⟩ := this (simp c) (hs c)
    refine ⟨face, ?_, c, h2, h3, h4, h5, h7⟩
    unfold mergeFaces
    rw [h1]
    exact h6
  · right
    refine ⟨?_, h2⟩
    unfold mergeFaces
    rw [h1]; rfl

/-- Adding a face is `PushFace`. -/
theorem built_addFace {m : GeoMesh V N} {fs : List (List (V × N))} (h : Built m fs) (l : List (V × N)) :
    Built (m.addFace l) (fs ++ [l]) := by
  have hz : (l.map (·.1)).zip (l.map (·.2)) = l := by
    induction l with
    | nil => rfl
    | cons a l ih => simp [ih]
  have := Built.push (m' := m.addFace l) ⟨l.map (·.1), l.map (·.2)⟩ h (by simp)
    (by simp [GeoMesh.pushFace, GeoFace.pairs, hz])
  simpa [hz] using this

/-- Why merging stops. -/
def Stops (faces : List (List Nat)) (planes : Planes) : Prop :=
  planes.tolerancePositive = false ∨ (∃ f ∈ faces, f.length < 3) ∨
    ∃ group, group ≠ [] ∧ (∀ f ∈ group, f < faces.length) ∧ Connected faces group ∧ ∀ e, ¬ Boundary faces group e

theorem simplifyLoop_ok {m : GeoMesh V N} {fs : List (List (V × N))} (hm : Holds m fs)
    {inv : Map (Nat × Nat) FaceEdge} {adj : Adjacency} (hi : inverseFaceEdges (vertexIndices m) = .ok inv)
    (ha : faceAdjacency (vertexIndices m) = .ok adj) (planes : Planes) {simp : List FaceEdge → List FaceEdge}
    (hs : ∀ c, ∀ e ∈ simp c, e ∈ c) : ∀ (n k : Nat) (visited : List Nat) (out : GeoMesh V N) (outfs : List (List (V × N))),
      k + n = (vertexIndices m).length → (∀ x < k, x ∈ visited) → Built out outfs →
      (∃ gs out' new, simplifyLoop m planes simp adj (List.range' k n) visited out = .ok (gs, out') ∧
        Groups (vertexIndices m) planes visited gs ∧ Built out' (outfs ++ new) ∧ List.Forall₂ (Merged m fs simp) gs new) ∨
      (simplifyLoop m planes simp adj (List.range' k n) visited out = .error (.err .aborts) ∧
        Stops (vertexIndices m) planes) := by
  intro n
  induction n with
  | zero =>
    intro k visited out outfs hk hv hb
    left
    exact ⟨[], out, [], by simp [simplifyLoop], .nil _ (by rw [← hk]; simpa using hv), by simpa using hb, .nil⟩
  | succ n ih =>
    intro k visited out outfs hk hv hb
    rw [List.range'_succ, simplifyLoop]
    by_cases hkv : k ∈ visited
    · rw [if_pos hkv]
      refine ih (k + 1) visited out outfs (by omega) ?_ hb
      intro x hx
      rcases Nat.lt_succ_iff_lt_or_eq.1 hx with h | rfl
      · exact hv x h
      · exact hkv
    · rw [if_neg hkv]
      rcases aggregate_ok hi ha planes (visited := visited) (start := k) (by omega) hkv with
        ⟨-, -, g, visited', h1, h2, h3⟩ | ⟨h1, h2⟩
      · rcases mergeFaces_ok hm hi ha hs h2.exist with ⟨face, h4, h5⟩ | ⟨h4, h5⟩
        · rw [h1]
          simp only [bind, Except.bind, h4]
          rcases ih (k + 1) visited' (out.addFace face) _ (by omega) (by
              intro x hx
              rw [h3]
              rcases Nat.lt_succ_iff_lt_or_eq.1 hx with h | rfl
              · exact .inl (hv x h)
              · exact .inr h2.mem_start) (built_addFace hb face) with ⟨gs, out', new, h6, h7, h8, h9⟩ | ⟨h6, h7⟩
          · left
            refine ⟨g :: gs, out', face :: new, by rw [h6]; rfl, .cons _ _ k g gs h2 hv h3 h7, by simpa using h8,
              .cons h5 h9⟩
          · right
            exact ⟨by rw [h6], h7⟩
        · right
          rw [h1]
          simp only [bind, Except.bind, h4]
          refine ⟨trivial, .inr (.inr ⟨g, List.ne_nil_of_mem h2.mem_start, fun f hf => lt_of_getD_ne (h2.exist f hf),
            h2.connected, h5⟩)⟩
      · right
        rw [h1]
        refine ⟨rfl, ?_⟩
        rcases h2 with h2 | h2
        · exact .inl h2
        · refine .inr (.inl ⟨(vertexIndices m).getD k [], ?_, h2⟩)
          have hlt : k < (vertexIndices m).length := by omega
          rw [List.getD, List.getElem?_eq_getElem hlt]
          exact List.getElem_mem hlt

end

section
variable {faces : List (List Nat)} {planes : Planes} {v : List Nat} {gs : List (List Nat)}

theorem groups_cover (h : Groups faces planes v gs) : ∀ x, x ∈ gs.flatten ↔ x < faces.length ∧ x ∉ v := by
  induction h with
  | nil v h => simpa using h
  | cons v v' start g gs hg hfirst hv h ih =>
    intro x
    rw [List.flatten_cons, List.mem_append, ih, hv]
    constructor
    · rintro (hx | ⟨hx, hn⟩)
      · exact ⟨lt_of_getD_ne (hg.exist x hx), hg.fresh x hx⟩
      · exact ⟨hx, fun h => hn (.inl h)⟩
    · rintro ⟨hx, hn⟩
      by_cases hxg : x ∈ g
      · exact .inl hxg
      · exact .inr ⟨hx, by tauto⟩

theorem groups_nodup (h : Groups faces planes v gs) : gs.flatten.Nodup := by
  induction h with
  | nil => simp
  | cons v v' start g gs hg hfirst hv h ih =>
    rw [List.flatten_cons, List.nodup_append]
    refine ⟨hg.sorted.imp fun h => Nat.ne_of_lt h, ih, fun a ha b hb he => ?_⟩
    subst he
    exact ((groups_cover h a).1 hb).2 ((hv a).2 (.inr ha))

theorem group_head {start : Nat} {g : List Nat} (hg : Group faces planes v start g) (hfirst : ∀ x < start, x ∈ v) :
    ∃ rest, g = start :: rest ∧ ∀ x ∈ rest, start < x := by
  rcases g with _ | ⟨a, rest⟩
  · exact absurd hg.mem_start (by simp)
  · have h1 := List.pairwise_cons.1 hg.sorted
    have h2 : ¬ a < start := fun h => hg.fresh a List.mem_cons_self (hfirst a h)
    rcases List.mem_cons.1 hg.mem_start with h | h
    · subst h; exact ⟨rest, rfl, h1.1⟩
    · exact absurd (h1.1 _ h) h2

theorem groups_each (h : Groups faces planes v gs) : ∀ g ∈ gs, Connected faces g ∧
    ∃ start rest, g = start :: rest ∧
      ∀ f ∈ rest, start < f ∧ planes.planar start = true ∧ planes.coplanar start f = true := by
  induction h with
  | nil => simp
  | cons v v' start g gs hg hfirst hv h ih =>
    intro g' hg'
    rcases List.mem_cons.1 hg' with rfl | hg'
    · refine ⟨hg.connected, ?_⟩
      obtain ⟨rest, rfl, hr⟩ := group_head hg hfirst
      refine ⟨start, rest, rfl, fun f hf => ⟨hr f hf, ?_⟩⟩
      rcases hg.coplanar f (List.mem_cons_of_mem _ hf) with h | h
      · have := hr f hf; omega
      · exact h
    · exact ih g' hg'

theorem groups_maximal (h : Groups faces planes v gs) : ∀ before first rest after,
    gs = before ++ (first :: rest) :: after → planes.planar first = true →
    ∀ f ∈ first :: rest, ∀ g ∈ after.flatten, Share faces f g → planes.coplanar first g = false := by
  induction h with
  | nil => intro before first rest after h; simp at h
  | cons v v' start g gs hg hfirst hv h ih =>
    intro before first rest after he hp f hf x hx hs
    rcases before with _ | ⟨b, before⟩
    · simp only [List.nil_append, List.cons.injEq] at he
      obtain ⟨rfl, rfl⟩ := he
      obtain ⟨rest', h1, -⟩ := group_head hg hfirst
      simp only [List.cons.injEq] at h1
      obtain ⟨rfl, rfl⟩ := h1
      by_contra hc
      have hx' := ((groups_cover h x).1 hx).2
      rw [hv] at hx'
      exact hx' (.inr (hg.maximal hp f hf x hs (by simpa using hc) (fun h => hx' (.inl h))))
    · simp only [List.cons_append, List.cons.injEq] at he
      exact ih before first rest after he.2 hp f hf x hx hs

theorem groups_order (h : Groups faces planes v gs) :
    (gs.map (·.head?)).Pairwise fun a b => ∀ x ∈ a, ∀ y ∈ b, x < y := by
  induction h with
  | nil => simp
  | cons v v' start g gs hg hfirst hv h ih =>
    rw [List.map_cons, List.pairwise_cons]
    refine ⟨?_, ih⟩
    intro b hb x hx y hy
    obtain ⟨rest, rfl, -⟩ := group_head hg hfirst
    simp only [List.head?_cons, Option.mem_def, Option.some.injEq] at hx
    subst hx
    obtain ⟨g', hg', rfl⟩ := List.mem_map.1 hb
    have hy' : y ∈ gs.flatten := List.mem_flatten.2 ⟨g', hg', List.mem_of_mem_head? hy⟩
    have := ((groups_cover h y).1 hy').2
    rw [hv] at this
    by_contra hc
    rcases Nat.lt_or_eq_of_le (Nat.not_lt.1 hc) with h1 | h1
    · exact this (.inl (hfirst y h1))
    · subst h1; exact this (.inr List.mem_cons_self)

theorem groups_partition (h : Groups faces planes [] gs) : Partition faces (planes.planar ·) (planes.coplanar · ·) gs := by
  refine ⟨?_, fun g hg => (groups_each h g hg).1, ?_, ?_, ?_, groups_order h⟩
  · rw [List.perm_ext_iff_of_nodup (groups_nodup h) List.nodup_range]
    intro x
    rw [groups_cover h, List.mem_range]
    simp
  · intro first rest hg f hf
    obtain ⟨-, start, rest', h1, h2⟩ := groups_each h _ hg
    simp only [List.cons.injEq] at h1
    obtain ⟨rfl, rfl⟩ := h1
    exact h2 f hf
  · intro hg
    obtain ⟨-, start, rest', h1, -⟩ := groups_each h _ hg
    cases h1
  · intro before first rest after he hp f hf g hg hs
    have := groups_maximal h before first rest after he hp f hf g hg hs
    simp [this]

end

/-! From indices to vertices. -/

section
variable {V N : Type} [DecidableEq V] [DecidableEq N] {m : GeoMesh V N} {fs : List (List (V × N))}

/-- The vertices of the faces. -/
def positions (fs : List (List (V × N))) : List (List V) := fs.map (·.map (·.1))

theorem edge_positions (h : Holds m fs) (e : FaceEdge) (a b : V) : edge (positions fs) e = some (a, b) ↔
    ∃ i j, edge (vertexIndices m) e = some (i, j) ∧ m.vertices.vector[i]? = some a ∧ m.vertices.vector[j]? = some b := by
  have hf := congrArg (fun l => l[e.1]?) h.faces
  simp only [List.getElem?_map] at hf
  unfold edge positions vertexIndices
  simp only [List.getElem?_map]
  rcases h1 : m.faces[e.1]? with _ | face
  · rcases h2 : fs[e.1]? with _ | l
    · simp
    · rw [h1, h2] at hf; simp at hf
  · rcases h2 : fs[e.1]? with _ | l
    · rw [h1, h2] at hf; simp at hf
    · rw [h1, h2] at hf
      simp only [Option.map_some, Option.some.injEq] at hf ⊢
      have hlen : face.length = l.length := by
        have := congrArg List.length hf
        simpa [decode, wanted] using this
      have hget : ∀ (k : Nat), (l.map (·.1))[k]? = ((face.map (·.1))[k]?).bind fun i => m.vertices.vector[i]? := by
        intro k
        have := congrArg (fun l => (l[k]?).map (·.1)) hf
        simp only [decode, wanted, List.getElem?_map, Option.map_map] at this
        simp only [List.getElem?_map]
        rcases h3 : face[k]? with _ | x <;> rcases h4 : l[k]? with _ | y <;> simp [h3, h4] at this ⊢
        rw [this]
      rw [hget, hget]
      simp only [List.length_map, hlen]
      generalize (face.map (·.1))[e.2]? = o1
      generalize (face.map (·.1))[(e.2 + 1) % l.length]? = o2
      rcases o1 with _ | i
      · simp
      · rcases o2 with _ | j
        · simp
        · simp only [Option.bind_some, Option.some.injEq, Prod.mk.injEq]
          rcases h5 : m.vertices.vector[i]? with _ | x <;> rcases h6 : m.vertices.vector[j]? with _ | y
          · simp [h5]
          · simp [h5]
          · simp [h5, h6]
          · simp only [Option.some.injEq, Prod.mk.injEq]
            constructor
            · rintro ⟨rfl, rfl⟩; exact ⟨i, j, ⟨rfl, rfl⟩, h5, h6⟩
            · rintro ⟨i', j', ⟨rfl, rfl⟩, hx, hy⟩
              rw [h5] at hx; rw [h6] at hy
              exact ⟨Option.some.inj hx, Option.some.inj hy⟩

theorem index_unique (h : Holds m fs) {i j : Nat} {a : V} (hi : m.vertices.vector[i]? = some a)
    (hj : m.vertices.vector[j]? = some a) : i = j := by
  obtain ⟨h1, h1'⟩ := List.getElem?_eq_some_iff.1 hi
  obtain ⟨h2, h2'⟩ := List.getElem?_eq_some_iff.1 hj
  exact (h.vertices.1.getElem_inj_iff).1 (h1'.trans h2'.symm)

theorem index_exists (h : Holds m fs) {face : IndexFace} (hf : face ∈ m.faces) {ij : Nat × Nat} (hij : ij ∈ face) :
    ∃ a, m.vertices.vector[ij.1]? = some a := by
  have : decode m.vertices.vector m.normals.vector face ∈ fs.map wanted := by
    rw [← h.faces]; exact List.mem_map_of_mem hf
  obtain ⟨l, -, hl⟩ := List.mem_map.1 this
  have hm : (m.vertices.vector[ij.1]?, m.normals.vector[ij.2]?) ∈ wanted l := by
    rw [hl]; exact List.mem_map.2 ⟨ij, hij, rfl⟩
  obtain ⟨vn, -, hvn⟩ := List.mem_map.1 hm
  exact ⟨vn.1, by simpa using (congrArg (·.1) hvn).symm⟩

theorem edge_index (h : Holds m fs) {e : FaceEdge} {i j : Nat} (he : edge (vertexIndices m) e = some (i, j)) :
    ∃ a b, m.vertices.vector[i]? = some a ∧ m.vertices.vector[j]? = some b := by
  unfold edge vertexIndices at he
  rw [List.getElem?_map] at he
  rcases h1 : m.faces[e.1]? with _ | face
  · rw [h1] at he; simp at he
  · rw [h1] at he
    simp only [Option.map_some] at he
    have hmem : face ∈ m.faces := List.mem_of_getElem? h1
    have hone : ∀ (k i : Nat), (face.map (·.1))[k]? = some i → ∃ a, m.vertices.vector[i]? = some a := by
      intro k i hk
      rw [List.getElem?_map] at hk
      rcases h2 : face[k]? with _ | ij
      · rw [h2] at hk; simp at hk
      · rw [h2] at hk
        simp only [Option.map_some, Option.some.injEq] at hk
        subst hk
        exact index_exists h hmem (List.mem_of_getElem? h2)
    split at he
    · next x y hx hy =>
      simp only [Option.some.injEq, Prod.mk.injEq] at he
      obtain ⟨rfl, rfl⟩ := he
      obtain ⟨a, ha⟩ := hone _ _ hx
      obtain ⟨b, hb⟩ := hone _ _ hy
      exact ⟨a, b, ha, hb⟩
    · cases he

theorem edge_exists (h : Holds m fs) (e : FaceEdge) :
    (edge (positions fs) e).isSome ↔ (edge (vertexIndices m) e).isSome := by
  constructor
  · intro he
    obtain ⟨⟨a, b⟩, hab⟩ := Option.isSome_iff_exists.1 he
    obtain ⟨i, j, hij, -⟩ := (edge_positions h e a b).1 hab
    simp [hij]
  · intro he
    obtain ⟨⟨i, j⟩, hij⟩ := Option.isSome_iff_exists.1 he
    obtain ⟨a, b, ha, hb⟩ := edge_index h hij
    simp [(edge_positions h e a b).2 ⟨i, j, hij, ha, hb⟩]

theorem twins_positions (h : Holds m fs) (e e' : FaceEdge) :
    Twins (positions fs) e e' ↔ Twins (vertexIndices m) e e' := by
  constructor
  · rintro ⟨a, b, h1, h2⟩
    obtain ⟨i, j, hij, hi, hj⟩ := (edge_positions h e a b).1 h1
    obtain ⟨i', j', hij', hi', hj'⟩ := (edge_positions h e' b a).1 h2
    have := index_unique h hi hj'
    have := index_unique h hj hi'
    subst_vars
    exact ⟨_, _, hij, hij'⟩
  · rintro ⟨i, j, h1, h2⟩
    obtain ⟨a, b, ha, hb⟩ := edge_index h h1
    exact ⟨a, b, (edge_positions h e a b).2 ⟨i, j, h1, ha, hb⟩, (edge_positions h e' b a).2 ⟨j, i, h2, hb, ha⟩⟩

theorem follows_positions (h : Holds m fs) (e e' : FaceEdge) :
    Follows (positions fs) e e' ↔ Follows (vertexIndices m) e e' := by
  constructor
  · rintro ⟨a, b, c, h1, h2⟩
    obtain ⟨i, j, hij, hi, hj⟩ := (edge_positions h e a b).1 h1
    obtain ⟨i', j', hij', hi', hj'⟩ := (edge_positions h e' b c).1 h2
    have := index_unique h hj hi'
    subst this
    exact ⟨_, _, _, hij, hij'⟩
  · rintro ⟨i, j, k, h1, h2⟩
    obtain ⟨a, b, ha, hb⟩ := edge_index h h1
    obtain ⟨b', c, hb', hc⟩ := edge_index h h2
    rw [hb] at hb'
    cases hb'
    exact ⟨a, b, c, (edge_positions h e a b).2 ⟨i, j, h1, ha, hb⟩, (edge_positions h e' b c).2 ⟨j, k, h2, hb, hc⟩⟩

theorem share_positions (h : Holds m fs) (f g : Nat) : Share (positions fs) f g ↔ Share (vertexIndices m) f g := by
  unfold Share
  simp only [twins_positions h]

theorem boundary_positions (h : Holds m fs) (region : List Nat) (e : FaceEdge) :
    Boundary (positions fs) region e ↔ Boundary (vertexIndices m) region e := by
  unfold Boundary
  simp only [twins_positions h, edge_exists h]

theorem closed_positions (h : Holds m fs) (c : List FaceEdge) :
    Closed (positions fs) c ↔ Closed (vertexIndices m) c := by
  unfold Closed
  have : Follows (positions fs) = Follows (vertexIndices m) := by
    funext a b; exact propext (follows_positions h a b)
  rw [this]

theorem connected_positions (h : Holds m fs) (g : List Nat) :
    Connected (positions fs) g ↔ Connected (vertexIndices m) g := by
  unfold Connected
  simp only [share_positions h]

theorem onceEach_positions (h : Holds m fs) : OnceEach (positions fs) ↔ OnceEach (vertexIndices m) := by
  constructor
  · rintro ho e e' ⟨i, j⟩ h1 h2
    obtain ⟨a, b, ha, hb⟩ := edge_index h h1
    exact ho e e' (a, b) ((edge_positions h e a b).2 ⟨i, j, h1, ha, hb⟩) ((edge_positions h e' a b).2 ⟨i, j, h2, ha, hb⟩)
  · rintro ho e e' ⟨a, b⟩ h1 h2
    obtain ⟨i, j, hij, hi, hj⟩ := (edge_positions h e a b).1 h1
    obtain ⟨i', j', hij', hi', hj'⟩ := (edge_positions h e' a b).1 h2
    have := index_unique h hi hi'
    have := index_unique h hj hj'
    subst_vars
    exact ho e e' _ hij hij'

theorem length_positions (h : Holds m fs) : (positions fs).length = (vertexIndices m).length := by
  have := congrArg List.length h.faces
  simpa [positions, vertexIndices] using this.symm

theorem partition_positions (h : Holds m fs) {planar : Nat → Prop} {coplanar : Nat → Nat → Prop} {gs : List (List Nat)}
    (hp : Partition (vertexIndices m) planar coplanar gs) : Partition (positions fs) planar coplanar gs := by
  obtain ⟨h1, h2, h3, h4, h5, h6⟩ := hp
  refine ⟨by rw [length_positions h]; exact h1, fun g hg => (connected_positions h g).2 (h2 g hg), h3, h4, ?_, h6⟩
  intro before first rest after he hpl f hf g hg hs
  exact h5 before first rest after he hpl f hf g hg ((share_positions h f g).1 hs)

/-- The vertices of a face. -/
theorem faceVertices_eq (h : Holds m fs) (f : Nat) : faceVertices m f = fs.getD f [] := by
  have hf := congrArg (fun l => l[f]?) h.faces
  simp only [List.getElem?_map] at hf
  unfold faceVertices
  rcases h1 : m.faces[f]? with _ | face <;> rcases h2 : fs[f]? with _ | l <;> rw [h1, h2] at hf
  · simp [h1, h2]
  · simp at hf
  · simp at hf
  · simp only [Option.map_some, Option.some.injEq] at hf
    simp only [List.getD, h1, h2, Option.getD_some]
    have := mapM_ok (deref_face hf)
    clear hf h1 h2
    induction this with
    | nil => rfl
    | cons h _ ih => rw [List.filterMap_cons_some (by rw [h]; rfl), ih]

end

section
open Maliput.Linear Maliput.DouglasPeucker.Spec

theorem mem_simplifyContour {α : Type} {pos : α → V3} {tolerance : ℝ} {c : List α} {e : α}
    (he : e ∈ DouglasPeucker.simplifyContour pos tolerance c) : e ∈ c := by
  by_cases hc : c = []
  · subst hc; simp [DouglasPeucker.simplifyContour] at he
  · unfold DouglasPeucker.simplifyContour at he
    split at he
    · exact he
    · obtain ⟨kept, h1, -⟩ := DouglasPeucker.simplify_spec (DouglasPeucker.lineDistance_uniform pos) tolerance c.length c
        le_rfl hc
      have : some e ∈ kept.map (fun i => c[i]?) := by rw [← h1]; exact List.mem_map_of_mem he
      obtain ⟨i, -, hi⟩ := List.mem_map.1 this
      exact List.mem_of_getElem? hi

theorem onPlane_iff {n p : V3} {tolerance : ℝ} {vn : V3 × V3} :
    onPlane n p tolerance vn = true ↔ OnPlane n p tolerance vn.1 vn.2 := by
  obtain ⟨x, nx⟩ := vn
  unfold onPlane OnPlane
  simp only
  by_cases hnx : nx.norm = 0
  · have : nx = ⟨0, 0, 0⟩ := DouglasPeucker.norm_eq_zero.1 hnx
    subst this
    simp [V3.normalized, hnx, V3.dot]
  · rw [DouglasPeucker.normalized_some hnx]
    have hpos : 0 < nx.norm := lt_of_le_of_ne (DouglasPeucker.norm_nonneg nx) (Ne.symm hnx)
    have hu : n.dot (V3.smul (1 / nx.norm) nx) = n.dot nx / nx.norm := by
      simp only [V3.dot, V3.smul]; field_simp
    simp only [hu]
    by_cases h0 : n.dot nx = 0
    · simp [h0]
    have hn : n.norm ≠ 0 := by
      intro h
      apply h0
      rw [DouglasPeucker.norm_eq_zero.1 h]
      simp [V3.dot]
    have hnpos : 0 < n.norm := lt_of_le_of_ne (DouglasPeucker.norm_nonneg n) (Ne.symm hn)
    have habs : 0 < |n.dot nx / nx.norm| := abs_pos.2 (div_ne_zero h0 hnx)
    have hdn : distance n ⟨0, 0, 0⟩ = n.norm := by
      unfold distance V3.norm V3.dot
      congr 1; ring
    have hda : ∀ t, distance x (along x nx t) = |t| * nx.norm := by
      intro t
      unfold distance along V3.norm
      rw [← Real.sqrt_sq_eq_abs, ← Real.sqrt_mul (sq_nonneg t)]
      congr 1
      simp only [V3.dot]; ring
    have hin : ∀ t, InPlane n p (along x nx t) ↔ t = (n.dot p - n.dot x) / n.dot nx := by
      intro t
      rw [eq_div_iff h0]
      unfold InPlane along V3.dot
      constructor <;> intro h <;> linarith
    simp only [hdn, hda, hin, exists_eq_left, h0, ne_eq, not_false_eq_true, true_and, abs_ne_zero.2 (div_ne_zero h0 hnx),
      distanceToAPlane, hn, if_false, decide_eq_true_eq]
    rw [div_lt_iff₀ habs, abs_div, abs_div, abs_div, abs_of_pos hpos, abs_of_pos hnpos, abs_sub_comm (n.dot p)]
    have hd : 0 < |n.dot nx| := abs_pos.2 h0
    rw [div_lt_iff₀ hnpos, div_mul_eq_mul_div, div_lt_iff₀ hd]
    constructor
    · intro h
      have := mul_lt_mul_of_pos_right h hpos
      calc _ < _ := this
        _ = _ := by field_simp
    · intro h
      have e : tolerance * (|n.dot nx| / nx.norm) * n.norm = tolerance * n.norm * |n.dot nx| / nx.norm := by
        field_simp
      rw [e, lt_div_iff₀ hpos]
      exact h

open Classical

theorem planar_iff {m : GeoMesh V3 V3} {fs : List (List (V3 × V3))} (h : Holds m fs) (tolerance : ℝ) (f : Nat) :
    (planesOf m tolerance).planar f = true ↔ Planar fs tolerance f := by
  unfold planesOf Planar
  simp only [faceVertices_eq h, List.getD]
  rcases hf : fs[f]? with _ | face
  · simp
  · rcases face with _ | ⟨⟨p, n⟩, rest⟩
    · simp
    · simp only [Option.getD_some, List.all_eq_true, onPlane_iff, Option.some.injEq, List.cons.injEq, Prod.mk.injEq]
      constructor
      · intro ha; exact ⟨p, n, rest, ⟨⟨rfl, rfl⟩, rfl⟩, ha⟩
      · rintro ⟨_, _, _, ⟨⟨rfl, rfl⟩, rfl⟩, ha⟩; exact ha

theorem coplanar_iff {m : GeoMesh V3 V3} {fs : List (List (V3 × V3))} (h : Holds m fs) (tolerance : ℝ) (f g : Nat) :
    (planesOf m tolerance).coplanar f g = true ↔ Coplanar fs tolerance f g := by
  unfold planesOf Coplanar
  simp only [faceVertices_eq h, List.getD]
  have hg : ∀ P : V3 × V3 → Prop, (∀ vn ∈ (fs[g]?.getD []), P vn) ↔ ∀ face, fs[g]? = some face → ∀ vn ∈ face, P vn := by
    intro P
    rcases fs[g]? with _ | face <;> simp
  rcases hf : fs[f]? with _ | face
  · simp
  · rcases face with _ | ⟨⟨p, n⟩, rest⟩
    · simp
    · simp only [Option.getD_some, List.all_eq_true, onPlane_iff, Option.some.injEq, List.cons.injEq, Prod.mk.injEq]
      constructor
      · intro ha; exact ⟨p, n, rest, ⟨⟨rfl, rfl⟩, rfl⟩, (hg _).1 ha⟩
      · rintro ⟨_, _, _, ⟨⟨rfl, rfl⟩, rfl⟩, ha⟩; exact (hg _).2 ha

theorem simplified_map {α β : Type} {near : α → α → α → Prop} {near' : β → β → β → Prop} {R : α → β → Prop}
    {c : List α} {l : List β} (hcl : List.Forall₂ R c l)
    (hnear : ∀ a b z a' b' z', R a a' → R b b' → R z z' → near a b z → near' a' b' z')
    {out : List α} {out' : List β} (ho : List.Forall₂ R out out') (hfun : ∀ a b b', R a b → R a b' → b = b')
    (h : Simplified near c out) : Simplified near' l out' := by
  obtain ⟨kept, h1, h2, h3, h4⟩ := h
  have hlen := hcl.length_eq
  have hget : ∀ (i : Nat) y, l[i]? = some y → ∃ x, c[i]? = some x ∧ R x y := by
    intro i y hy
    obtain ⟨hi, hy⟩ := List.getElem?_eq_some_iff.1 hy
    refine ⟨c[i], List.getElem?_eq_getElem (by omega), ?_⟩
    have := (List.forall₂_iff_get.1 hcl).2 i (by omega) hi
    rw [← hy]
    exact this
  refine ⟨kept, ?_, h2, by rw [← hlen]; exact h3, h4.imp ?_⟩
  · apply List.ext_getElem?
    intro k
    have hk := congrArg (fun l => l[k]?) h1
    simp only [List.getElem?_map] at hk ⊢
    have hlen' := ho.length_eq
    rcases hki : kept[k]? with _ | i
    · rw [hki] at hk
      have : out[k]? = none := by simpa using hk
      have : out'[k]? = none := by
        rw [List.getElem?_eq_none_iff] at this ⊢; omega
      simp [this]
    · rw [hki] at hk
      simp only [Option.map_some] at hk ⊢
      obtain ⟨x, hx, hx'⟩ := Option.map_eq_some_iff.1 hk
      obtain ⟨hko, hxk⟩ := List.getElem?_eq_some_iff.1 hx
      have hR := (List.forall₂_iff_get.1 ho).2 k hko (by omega)
      rw [List.getElem?_eq_getElem (show k < out'.length by omega)]
      obtain ⟨hic, hxc⟩ := List.getElem?_eq_some_iff.1 hx'.symm
      have hR' := (List.forall₂_iff_get.1 hcl).2 i hic (by omega)
      simp only [List.get_eq_getElem] at hR hR'
      rw [hxk] at hR
      rw [hxc] at hR'
      rw [List.getElem?_eq_getElem (show i < l.length by omega), hfun _ _ _ hR hR']
      rfl
  · rintro i j ⟨hij, hk⟩
    refine ⟨hij, fun k hik hkj x y z hx hy hz => ?_⟩
    obtain ⟨x', hx', rx⟩ := hget i x hx
    obtain ⟨y', hy', ry⟩ := hget j y hy
    obtain ⟨z', hz', rz⟩ := hget k z hz
    exact hnear x' y' z' x y z rx ry rz (hk k hik hkj x' y' z' hx' hy' hz')

end

end Maliput.MeshSimplification
