import Verif.Lemmas.Map
import Verif.Lemmas.Monad
import Verif.Spec.MeshSimplification

set_option autoImplicit false

/-! Lemmas about the adjacency of faces. -/
namespace Maliput.MeshSimplification

open Spec

/-- The edge `e` exists. -/
def Valid (faces : List (List Nat)) (e : FaceEdge) : Prop := e.2 < (faces.getD e.1 []).length

/-- The vertices of edge `e`. -/
def dir (faces : List (List Nat)) (e : FaceEdge) : Nat × Nat :=
  ((faces.getD e.1 []).getD e.2 0, (faces.getD e.1 []).getD ((e.2 + 1) % (faces.getD e.1 []).length) 0)

theorem edge_eq_some {faces : List (List Nat)} {e : FaceEdge} {d : Nat × Nat} :
    edge faces e = some d ↔ Valid faces e ∧ dir faces e = d := by
  unfold edge Valid dir
  rcases h : faces[e.1]? with _ | face
  · simp [List.getD, h]
  · simp only [List.getD, h, Option.getD_some]
    by_cases hlt : e.2 < face.length
    · have hm : (e.2 + 1) % face.length < face.length := Nat.mod_lt _ (by omega)
      simp [List.getElem?_eq_getElem hm, hlt]
    · simp [hlt]

theorem mem_allEdges {faces : List (List Nat)} {d : Nat × Nat} {e : FaceEdge} :
    (d, e) ∈ allEdges faces ↔ edge faces e = some d := by
  rw [edge_eq_some]
  simp only [allEdges, List.mem_flatMap, List.mem_range, faceEdges, List.mem_map, Prod.mk.injEq]
  constructor
  · rintro ⟨fi, hfi, i, hi, h, rfl⟩
    exact ⟨hi, h⟩
  · rintro ⟨h, hd⟩
    refine ⟨e.1, ?_, e.2, h, hd, rfl⟩
    by_contra hc
    simp [Valid, List.getD, List.getElem?_eq_none (Nat.not_lt.1 hc)] at h

theorem foldlM_addEdge (l : List ((Nat × Nat) × FaceEdge)) : ∀ (m m' : Map (Nat × Nat) FaceEdge),
    l.foldlM addEdge m = .ok m' →
      (∀ d e, m'.get? d = some e ↔ m.get? d = some e ∨ (d, e) ∈ l) ∧ (l.map (·.1)).Nodup ∧
        ∀ x ∈ l, m.get? x.1 = none := by
  induction l with
  | nil => intro m m' h; cases h; simp
  | cons x l ih =>
    intro m m' h
    rw [List.foldlM_cons] at h
    unfold addEdge at h
    split at h
    · cases h
    · next hx =>
      have hx : m.get? x.1 = none := Map.has_false.1 (by simpa using hx)
      obtain ⟨h1, h2, h3⟩ := ih _ _ h
      refine ⟨?_, ?_, ?_⟩
      · intro d e
        rw [h1, Map.get?_set]
        by_cases hd : d = x.1
        · subst hd
          obtain ⟨a, b⟩ := x
          simp [hx, eq_comm]
        · obtain ⟨a, b⟩ := x
          simp at hd
          simp [hd]
      · simp only [List.map_cons, List.nodup_cons, h2, and_true]
        intro hm
        obtain ⟨y, hy, e⟩ := List.mem_map.1 hm
        have := h3 y hy
        rw [e, Map.get?_set, if_pos rfl] at this
        cases this
      · intro y hy
        rcases List.mem_cons.1 hy with rfl | hy
        · exact hx
        · have := h3 y hy
          rw [Map.get?_set] at this
          split at this
          · cases this
          · exact this

theorem foldlM_addEdge_ok (l : List ((Nat × Nat) × FaceEdge)) : ∀ (m : Map (Nat × Nat) FaceEdge),
    (l.map (·.1)).Nodup → (∀ x ∈ l, m.get? x.1 = none) → ∃ m', l.foldlM addEdge m = .ok m' := by
  induction l with
  | nil => intro m _ _; exact ⟨m, rfl⟩
  | cons x l ih =>
    intro m hn hx
    rw [List.map_cons, List.nodup_cons] at hn
    have h0 := hx x List.mem_cons_self
    obtain ⟨m', hm'⟩ := ih (m.set x.1 x.2) hn.2 (by
      intro y hy
      rw [Map.get?_set, if_neg]
      · exact hx y (List.mem_cons_of_mem _ hy)
      · intro e; exact hn.1 (List.mem_map.2 ⟨y, hy, e⟩))
    refine ⟨m', ?_⟩
    rw [List.foldlM_cons, addEdge, if_neg (by simp [Map.has_false.2 h0])]
    exact hm'

theorem foldlM_addEdge_error (l : List ((Nat × Nat) × FaceEdge)) : ∀ (m : Map (Nat × Nat) FaceEdge) (e : Err),
    l.foldlM addEdge m = .error e → e = .aborts := by
  induction l with
  | nil => intro m e h; cases h
  | cons x l ih =>
    intro m e h
    rw [List.foldlM_cons] at h
    unfold addEdge at h
    split at h
    · cases h; rfl
    · exact ih _ _ h

theorem nodup_allEdges (faces : List (List Nat)) : ((allEdges faces).map (·.2)).Nodup := by
  unfold allEdges
  rw [List.map_flatMap, List.nodup_flatMap]
  constructor
  · intro fi _
    simp only [faceEdges, List.map_map]
    exact List.Nodup.map (fun a b h => by simpa using h) List.nodup_range
  · refine List.nodup_range.pairwise_of_forall_ne ?_
    intro a _ b _ hab
    simp only [Function.onFun, faceEdges, List.map_map]
    intro x hx hy
    obtain ⟨i, -, rfl⟩ := List.mem_map.1 hx
    obtain ⟨j, -, h⟩ := List.mem_map.1 hy
    simp at h
    exact hab h.1.symm

theorem inverse_ok {faces : List (List Nat)} : (∃ inv, inverseFaceEdges faces = .ok inv) ↔ OnceEach faces := by
  constructor
  · rintro ⟨inv, h⟩ e e' d he he'
    obtain ⟨-, h2, -⟩ := foldlM_addEdge _ _ _ h
    have h1 := mem_allEdges.2 he
    have h1' := mem_allEdges.2 he'
    have := List.inj_on_of_nodup_map h2 h1 h1' rfl
    simpa using this
  · intro h
    refine foldlM_addEdge_ok _ _ ?_ (by simp)
    refine List.Nodup.map_on ?_ ((nodup_allEdges faces).of_map)
    rintro ⟨d, e⟩ hx ⟨d', e'⟩ hy hd
    simp only at hd
    subst hd
    rw [h e e' d (mem_allEdges.1 hx) (mem_allEdges.1 hy)]

theorem inverse_get {faces : List (List Nat)} {inv : Map (Nat × Nat) FaceEdge} (h : inverseFaceEdges faces = .ok inv)
    {d : Nat × Nat} {e : FaceEdge} : inv.get? d = some e ↔ edge faces e = some d := by
  obtain ⟨h1, -, -⟩ := foldlM_addEdge _ _ _ h
  rw [h1, mem_allEdges]; simp

/-- The row of the adjacency of face `f`, of which the edges in `done` are known. -/
def rowOf (faces : List (List Nat)) (inv : Map (Nat × Nat) FaceEdge) (done : List FaceEdge) (f : Nat) :
    List (Option FaceEdge) :=
  (List.range (faces.getD f []).length).map fun i => if (f, i) ∈ done then inv.get? (dir faces (f, i)).swap else none

theorem rowOf_irrelevant {faces : List (List Nat)} {inv : Map (Nat × Nat) FaceEdge} {done : List FaceEdge} {e : FaceEdge}
    {f : Nat} (h : f ≠ e.1) : rowOf faces inv (done ++ [e]) f = rowOf faces inv done f := by
  unfold rowOf
  refine List.map_congr_left fun i _ => ?_
  have : (f, i) ≠ e := by rintro rfl; exact h rfl
  simp [this]

theorem rowOf_set {faces : List (List Nat)} {inv : Map (Nat × Nat) FaceEdge} {done : List FaceEdge} {e : FaceEdge}
    {o : Option FaceEdge} (ho : inv.get? (dir faces e).swap = o) :
    (rowOf faces inv done e.1).set e.2 o = rowOf faces inv (done ++ [e]) e.1 := by
  apply List.ext_getElem
  · simp [rowOf]
  · intro i h1 h2
    rw [List.getElem_set]
    simp only [rowOf, List.getElem_map, List.getElem_range, List.mem_append, List.mem_singleton]
    by_cases hi : e.2 = i
    · subst hi
      simp [ho]
    · have : (e.1, i) ≠ e := by rintro he; exact hi (congrArg Prod.snd he).symm
      simp [hi, this]

theorem set_none {l : List (Option FaceEdge)} {i : Nat} (h : ∀ x, l[i]? = some x → x = none) : l.set i none = l := by
  apply List.ext_getElem?
  intro j
  rw [List.getElem?_set]
  split
  · next hij =>
    subst hij
    split
    · next hlt => rw [List.getElem?_eq_getElem hlt, h l[i] (List.getElem?_eq_getElem hlt)]
    · next hlt => rw [List.getElem?_eq_none (Nat.not_lt.1 hlt)]
  · rfl

open Classical in
theorem addAdjacent_get {faces : List (List Nat)} {inv : Map (Nat × Nat) FaceEdge} {done : List FaceEdge} {m : Adjacency}
    (h : ∀ f, m.get? f = if ∃ i, (f, i) ∈ done then some (rowOf faces inv done f) else none)
    {d : Nat × Nat} {e : FaceEdge} (he : dir faces e = d) (hn : e ∉ done) (f : Nat) :
    (addAdjacent faces inv m (d, e)).get? f =
      if ∃ i, (f, i) ∈ done ++ [e] then some (rowOf faces inv (done ++ [e]) f) else none := by
  have hex : ∀ f, (∃ i, (f, i) ∈ done ++ [e]) ↔ (∃ i, (f, i) ∈ done) ∨ f = e.1 := by
    intro f
    simp only [List.mem_append, List.mem_singleton]
    constructor
    · rintro ⟨i, h | h⟩
      · exact .inl ⟨i, h⟩
      · exact .inr (congrArg Prod.fst h)
    · rintro (⟨i, h⟩ | h)
      · exact ⟨i, .inl h⟩
      · exact ⟨e.2, .inr (by rw [h])⟩
  -- the map after the row was created
  have h1 : ∀ f, (if m.has e.1 then m else m.set e.1 (List.replicate (faces.getD e.1 []).length none)).get? f =
      if ∃ i, (f, i) ∈ done ++ [e] then some (rowOf faces inv done f) else none := by
    intro f
    rw [if_congr (hex f) rfl rfl]
    by_cases hh : m.has e.1 = true
    · rw [if_pos hh, h f]
      by_cases hf : f = e.1
      · subst hf
        obtain ⟨v, hv⟩ := Map.has_iff.1 hh
        rw [h e.1] at hv
        split at hv
        · next hx => simp [hx]
        · cases hv
      · simp [hf]
    · rw [if_neg hh, Map.get?_set]
      have hnone : m.get? e.1 = none := Map.has_false.1 (by simpa using hh)
      by_cases hf : f = e.1
      · subst hf
        rw [h e.1] at hnone
        split at hnone
        · cases hnone
        · next hx =>
          rw [if_pos rfl, if_pos (.inr rfl)]
          congr 1
          unfold rowOf
          apply List.ext_getElem
          · simp
          · intro i h1 h2
            have : (e.1, i) ∉ done := fun hi => hx ⟨i, hi⟩
            simp [this]
      · rw [if_neg hf, h f]
        simp [hf]
  unfold addAdjacent
  simp only
  have hs : (d.2, d.1) = (dir faces e).swap := by rw [he]; rfl
  rw [hs]
  generalize ho : inv.get? (dir faces e).swap = o
  have hrow : (if m.has e.1 then m else m.set e.1 (List.replicate (faces.getD e.1 []).length none)).get? e.1 =
      some (rowOf faces inv done e.1) := by
    rw [h1, if_pos ((hex e.1).2 (.inr rfl))]
  rcases o with _ | other
  · simp only
    rw [h1]
    by_cases hf : f = e.1
    · subst hf
      rw [if_pos ((hex e.1).2 (.inr rfl)), if_pos ((hex e.1).2 (.inr rfl))]
      rw [← rowOf_set ho, set_none]
      intro x hx
      unfold rowOf at hx
      rw [List.getElem?_map] at hx
      obtain ⟨y, hy, rfl⟩ := Option.map_eq_some_iff.1 hx
      have hlt := (List.getElem?_eq_some_iff.1 hy).1
      have : y = e.2 := by
        have := (List.getElem?_eq_some_iff.1 hy).2
        simpa using this.symm
      subst this
      simp [hn]
    · rw [rowOf_irrelevant hf]
  · simp only
    rw [Map.get?_set, hrow, Option.getD_some, rowOf_set ho]
    by_cases hf : f = e.1
    · subst hf
      rw [if_pos rfl, if_pos ((hex e.1).2 (.inr rfl))]
    · rw [if_neg hf, h1, rowOf_irrelevant hf]

open Classical in
theorem foldl_addAdjacent {faces : List (List Nat)} {inv : Map (Nat × Nat) FaceEdge}
    (l : List ((Nat × Nat) × FaceEdge)) : ∀ (done : List FaceEdge) (m : Adjacency),
    (∀ f, m.get? f = if ∃ i, (f, i) ∈ done then some (rowOf faces inv done f) else none) →
    (∀ x ∈ l, dir faces x.2 = x.1) → (done ++ l.map (·.2)).Nodup → ∀ f,
    (l.foldl (addAdjacent faces inv) m).get? f =
      if ∃ i, (f, i) ∈ done ++ l.map (·.2) then some (rowOf faces inv (done ++ l.map (·.2)) f) else none := by
  induction l with
  | nil => intro done m h _ _ f; simpa using h f
  | cons x l ih =>
    intro done m h hd hn f
    obtain ⟨d, e⟩ := x
    have e1 : done ++ ((d, e) :: l).map (·.2) = (done ++ [e]) ++ l.map (·.2) := by simp
    rw [e1] at hn ⊢
    rw [List.foldl_cons]
    refine ih (done ++ [e]) _ ?_ (fun x hx => hd x (List.mem_cons_of_mem _ hx)) hn f
    refine addAdjacent_get h (hd (d, e) List.mem_cons_self) ?_
    have := (List.nodup_append.1 hn).1
    rw [List.nodup_append] at this
    intro hm
    exact this.2.2 e hm e (by simp) rfl

/-- What the adjacency says about an edge. -/
def twin (inv : Map (Nat × Nat) FaceEdge) (faces : List (List Nat)) (e : FaceEdge) : Option FaceEdge :=
  inv.get? (dir faces e).swap

theorem adjacency_get {faces : List (List Nat)} {inv : Map (Nat × Nat) FaceEdge} {adj : Adjacency}
    (hi : inverseFaceEdges faces = .ok inv) (ha : faceAdjacency faces = .ok adj) (f : Nat) :
    adj.get? f = if faces.getD f [] = [] then none
      else some ((List.range (faces.getD f []).length).map fun i => twin inv faces (f, i)) := by
  unfold faceAdjacency at ha
  rw [hi] at ha
  cases ha
  have hmem : ∀ e : FaceEdge, e ∈ [] ++ inv.entries.map (·.2) ↔ Valid faces e := by
    intro e
    simp only [List.nil_append, List.mem_map]
    constructor
    · rintro ⟨⟨d, e'⟩, hx, rfl⟩
      have := Map.get?_eq_some.2 hx
      rw [inverse_get hi, edge_eq_some] at this
      exact this.1
    · intro hv
      refine ⟨(dir faces e, e), ?_, rfl⟩
      rw [← Map.get?_eq_some, inverse_get hi, edge_eq_some]
      exact ⟨hv, rfl⟩
  rw [foldl_addAdjacent inv.entries [] .empty (by simp) ?_ ?_ f]
  · by_cases hf : faces.getD f [] = []
    · rw [if_pos hf, if_neg]
      rintro ⟨i, h⟩
      rw [hmem] at h
      unfold Valid at h
      rw [hf] at h
      simp at h
    · rw [if_neg hf, if_pos]
      · congr 1
        unfold rowOf
        refine List.map_congr_left fun i hi => ?_
        rw [if_pos]; · rfl
        rw [hmem]
        exact List.mem_range.1 hi
      · refine ⟨0, ?_⟩
        rw [hmem]
        exact List.length_pos_iff.2 hf
  · rintro ⟨d, e⟩ hx
    have := Map.get?_eq_some.2 hx
    rw [inverse_get hi, edge_eq_some] at this
    exact this.2
  · rw [List.nil_append]
    refine List.Nodup.map_on ?_ (inv.nodup.of_map)
    rintro ⟨d, e⟩ hx ⟨d', e'⟩ hy he
    simp only at he
    subst he
    have h1 := Map.get?_eq_some.2 hx
    have h2 := Map.get?_eq_some.2 hy
    rw [inverse_get hi] at h1 h2
    rw [h1] at h2
    cases h2
    rfl

theorem adjacency_ok {faces : List (List Nat)} : (∃ adj, faceAdjacency faces = .ok adj) ↔ OnceEach faces := by
  rw [← inverse_ok]
  unfold faceAdjacency
  constructor
  · rintro ⟨adj, h⟩
    rw [bind_ok] at h
    obtain ⟨inv, h, -⟩ := h
    exact ⟨inv, h⟩
  · rintro ⟨inv, h⟩
    rw [h]
    exact ⟨_, rfl⟩

theorem adjacency_error {faces : List (List Nat)} {e : Err} (h : faceAdjacency faces = .error e) : e = .aborts := by
  unfold faceAdjacency at h
  rcases hi : inverseFaceEdges faces with e' | inv
  · rw [hi] at h
    cases h
    exact foldlM_addEdge_error _ _ _ hi
  · rw [hi] at h; cases h

/-- The twin of an edge. -/
theorem twin_some {faces : List (List Nat)} {inv : Map (Nat × Nat) FaceEdge} (hi : inverseFaceEdges faces = .ok inv)
    {e e' : FaceEdge} (hv : Valid faces e) : twin inv faces e = some e' ↔ Twins faces e e' := by
  unfold twin
  rw [inverse_get hi]
  constructor
  · intro h
    exact ⟨(dir faces e).1, (dir faces e).2, edge_eq_some.2 ⟨hv, rfl⟩, h⟩
  · rintro ⟨a, b, h1, h2⟩
    rw [edge_eq_some] at h1
    rw [h1.2]
    exact h2

theorem twins_symm {faces : List (List Nat)} {e e' : FaceEdge} (h : Twins faces e e') : Twins faces e' e := by
  obtain ⟨a, b, h1, h2⟩ := h
  exact ⟨b, a, h2, h1⟩

theorem twins_valid {faces : List (List Nat)} {e e' : FaceEdge} (h : Twins faces e e') :
    Valid faces e ∧ Valid faces e' := by
  obtain ⟨a, b, h1, h2⟩ := h
  exact ⟨(edge_eq_some.1 h1).1, (edge_eq_some.1 h2).1⟩

theorem twins_unique {faces : List (List Nat)} (ho : OnceEach faces) {e e' e'' : FaceEdge} (h : Twins faces e e')
    (h' : Twins faces e e'') : e' = e'' := by
  obtain ⟨a, b, h1, h2⟩ := h
  obtain ⟨a', b', h1', h2'⟩ := h'
  rw [h1] at h1'
  cases h1'
  exact ho _ _ _ h2 h2'

/-- Reading the row of a face. -/
theorem adjacency_row {faces : List (List Nat)} {inv : Map (Nat × Nat) FaceEdge} {adj : Adjacency}
    (hi : inverseFaceEdges faces = .ok inv) (ha : faceAdjacency faces = .ok adj) {e : FaceEdge} (hv : Valid faces e) :
    ∃ row, adj.at! e.1 = .ok row ∧ row.length = (faces.getD e.1 []).length ∧ row[e.2]? = some (twin inv faces e) := by
  have hne : faces.getD e.1 [] ≠ [] := by
    intro h; unfold Valid at hv; rw [h] at hv; simp at hv
  refine ⟨_, Map.at!_ok.2 (by rw [adjacency_get hi ha, if_neg hne]), by simp, ?_⟩
  rw [List.getElem?_map, List.getElem?_range hv]
  rfl

end Maliput.MeshSimplification
