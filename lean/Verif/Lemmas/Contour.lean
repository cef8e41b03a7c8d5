import Mathlib.Data.List.Perm.Subperm
import Mathlib.Logic.Function.Iterate
import Mathlib.Algebra.BigOperators.Group.List.Basic
import Verif.Lemmas.FaceAdjacency

set_option autoImplicit false

/-! Lemmas about contours. -/
namespace Maliput.MeshSimplification

open Spec
open Maliput.RouteGraph (Stop lift)

section Cycle
variable {X : Type} {P : X → Prop} {f : X → X}

theorem iterate_mem (hP : ∀ a, P a → P (f a)) {x : X} (hx : P x) : ∀ n, P (f^[n] x)
  | 0 => hx
  | n + 1 => by rw [Function.iterate_succ_apply']; exact hP _ (iterate_mem hP hx n)

theorem iterate_cancel (hP : ∀ a, P a → P (f a)) (hinj : ∀ a b, P a → P b → f a = f b → a = b) {x : X} (hx : P x) :
    ∀ i k, f^[i] x = f^[i + k] x → x = f^[k] x
  | 0, k, h => by simpa using h
  | i + 1, k, h => by
    rw [show i + 1 + k = (i + k) + 1 by omega, Function.iterate_succ_apply', Function.iterate_succ_apply'] at h
    exact iterate_cancel hP hinj hx i k (hinj _ _ (iterate_mem hP hx _) (iterate_mem hP hx _) h)

/-- An injective function on a finite set comes back to where it started. -/
theorem cycle (hP : ∀ a, P a → P (f a)) (hinj : ∀ a b, P a → P b → f a = f b → a = b) (l : List X)
    (hl : ∀ a, P a → a ∈ l) {x : X} (hx : P x) :
    ∃ p, 0 < p ∧ p ≤ l.length ∧ f^[p] x = x ∧ ((List.range p).map fun k => f^[k] x).Nodup ∧
      ∀ k, 0 < k → k < p → f^[k] x ≠ x := by
  classical
  have hex : ∃ p, 0 < p ∧ f^[p] x = x := by
    by_contra hc
    push Not at hc
    have hn : ((List.range (l.length + 1)).map fun k => f^[k] x).Nodup := by
      rw [List.nodup_map_iff_inj_on List.nodup_range]
      intro i _ j _ h
      rcases Nat.lt_trichotomy i j with hij | hij | hij
      · have := iterate_cancel hP hinj hx i (j - i) (by rw [h, Nat.add_sub_cancel' hij.le])
        exact absurd this.symm (hc _ (by omega))
      · exact hij
      · have := iterate_cancel hP hinj hx j (i - j) (by rw [← h, Nat.add_sub_cancel' hij.le])
        exact absurd this.symm (hc _ (by omega))
    have := (hn.subperm (l₂ := l) (by
      intro y hy
      obtain ⟨k, -, rfl⟩ := List.mem_map.1 hy
      exact hl _ (iterate_mem hP hx k))).length_le
    simp at this
  have hmin : ∀ k, 0 < k → k < Nat.find hex → f^[k] x ≠ x := fun k h0 hk h => Nat.find_min hex hk ⟨h0, h⟩
  obtain ⟨h0, hp⟩ := Nat.find_spec hex
  have hn : ((List.range (Nat.find hex)).map fun k => f^[k] x).Nodup := by
    rw [List.nodup_map_iff_inj_on List.nodup_range]
    intro i hi j hj h
    rw [List.mem_range] at hi hj
    rcases Nat.lt_trichotomy i j with hij | hij | hij
    · have := iterate_cancel hP hinj hx i (j - i) (by rw [h, Nat.add_sub_cancel' hij.le])
      exact absurd this.symm (hmin _ (by omega) (by omega))
    · exact hij
    · have := iterate_cancel hP hinj hx j (i - j) (by rw [← h, Nat.add_sub_cancel' hij.le])
      exact absurd this.symm (hmin _ (by omega) (by omega))
  refine ⟨Nat.find hex, h0, ?_, hp, hn, hmin⟩
  have := (hn.subperm (l₂ := l) (by
    intro y hy
    obtain ⟨k, -, rfl⟩ := List.mem_map.1 hy
    exact hl _ (iterate_mem hP hx k))).length_le
  simpa using this

end Cycle

section
variable {faces : List (List Nat)} {inv : Map (Nat × Nat) FaceEdge} {adj : Adjacency} {region : List Nat}

/-- The next edge of the same face. -/
def next (faces : List (List Nat)) (e : FaceEdge) : FaceEdge := (e.1, (e.2 + 1) % (faces.getD e.1 []).length)

/-- The edge in the region across `e`, or `e` itself. -/
def across (faces : List (List Nat)) (inv : Map (Nat × Nat) FaceEdge) (region : List Nat) (e : FaceEdge) : FaceEdge :=
  if isOuter region (twin inv faces e) then e else (twin inv faces e).getD e

/-- An edge of the region. -/
def InRegion (faces : List (List Nat)) (region : List Nat) (e : FaceEdge) : Prop := Valid faces e ∧ e.1 ∈ region

theorem next_valid {e : FaceEdge} (h : Valid faces e) : Valid faces (next faces e) := by
  unfold Valid at h
  exact Nat.mod_lt _ (by omega)

theorem next_inj {e e' : FaceEdge} (h : Valid faces e) (h' : Valid faces e') (he : next faces e = next faces e') :
    e = e' := by
  obtain ⟨f, i⟩ := e
  obtain ⟨f', i'⟩ := e'
  simp only [next, Prod.mk.injEq] at he
  obtain ⟨rfl, he⟩ := he
  simp only [Valid] at h h'
  congr 1
  rcases Nat.lt_or_ge (i + 1) (faces.getD f []).length with h1 | h1
  · rcases Nat.lt_or_ge (i' + 1) (faces.getD f []).length with h2 | h2
    · rw [Nat.mod_eq_of_lt h1, Nat.mod_eq_of_lt h2] at he; omega
    · rw [Nat.mod_eq_of_lt h1, show i' + 1 = (faces.getD f []).length by omega, Nat.mod_self] at he; omega
  · rcases Nat.lt_or_ge (i' + 1) (faces.getD f []).length with h2 | h2
    · rw [Nat.mod_eq_of_lt h2, show i + 1 = (faces.getD f []).length by omega, Nat.mod_self] at he; omega
    · omega

/-- The next edge of a face starts where the edge ends. -/
theorem next_follows {e : FaceEdge} (h : Valid faces e) : Follows faces e (next faces e) := by
  refine ⟨(dir faces e).1, (dir faces e).2, (dir faces (next faces e)).2, edge_eq_some.2 ⟨h, rfl⟩,
    edge_eq_some.2 ⟨next_valid h, ?_⟩⟩
  rfl

theorem isOuter_some {o : Option FaceEdge} : isOuter region o = false ↔ ∃ e, o = some e ∧ e.1 ∈ region := by
  rcases o with _ | e <;> simp [isOuter]

/-- Edges of the contour are the boundary. -/
theorem isOuter_boundary (hi : inverseFaceEdges faces = .ok inv) {e : FaceEdge} (h : InRegion faces region e) :
    isOuter region (twin inv faces e) = true ↔ Boundary faces region e := by
  constructor
  · intro ho
    refine ⟨h.2, by rw [edge_eq_some.2 ⟨h.1, rfl⟩]; rfl, ?_⟩
    intro e' ht hr
    rw [(twin_some hi h.1).2 ht] at ho
    simp [isOuter, hr] at ho
  · rintro ⟨-, -, hb⟩
    by_contra hc
    obtain ⟨e', h1, h2⟩ := isOuter_some.1 (by simpa using hc)
    exact hb e' ((twin_some hi h.1).1 h1) h2

theorem across_eq {e : FaceEdge} : (isOuter region (twin inv faces e) = true ∧ across faces inv region e = e) ∨
    ∃ e', twin inv faces e = some e' ∧ e'.1 ∈ region ∧ isOuter region (twin inv faces e) = false ∧
      across faces inv region e = e' := by
  unfold across
  by_cases h : isOuter region (twin inv faces e) = true
  · left; simp [h]
  · right
    have h : isOuter region (twin inv faces e) = false := by simpa using h
    obtain ⟨e', h1, h2⟩ := isOuter_some.1 h
    exact ⟨e', h1, h2, h, by rw [if_neg (by rw [h]; simp), h1]; rfl⟩

theorem across_region (hi : inverseFaceEdges faces = .ok inv) {e : FaceEdge} (h : InRegion faces region e) :
    InRegion faces region (across faces inv region e) := by
  rcases across_eq (faces := faces) (inv := inv) (region := region) (e := e) with ⟨-, h2⟩ | ⟨e', h1, h2, -, h3⟩
  · rw [h2]; exact h
  · rw [h3]
    exact ⟨(twins_valid ((twin_some hi h.1).1 h1)).2, h2⟩

theorem across_across (hi : inverseFaceEdges faces = .ok inv) {e : FaceEdge} (h : InRegion faces region e) :
    across faces inv region (across faces inv region e) = e := by
  rcases across_eq (faces := faces) (inv := inv) (region := region) (e := e) with ⟨-, h2⟩ | ⟨e', h1, h2, -, h3⟩
  · rw [h2, h2]
  · rw [h3]
    have ht := twins_symm ((twin_some hi h.1).1 h1)
    have ht' := (twin_some hi (twins_valid ht).1).2 ht
    unfold across
    rw [ht', if_neg (by simp [isOuter, h.2])]
    rfl

/-- The next edge of the walk around the region. -/
def walk (faces : List (List Nat)) (inv : Map (Nat × Nat) FaceEdge) (region : List Nat) (e : FaceEdge) : FaceEdge :=
  next faces (across faces inv region e)

theorem walk_region (hi : inverseFaceEdges faces = .ok inv) {e : FaceEdge} (h : InRegion faces region e) :
    InRegion faces region (walk faces inv region e) :=
  ⟨next_valid (across_region hi h).1, (across_region hi h).2⟩

theorem walk_inj (hi : inverseFaceEdges faces = .ok inv) (e e' : FaceEdge) (h : InRegion faces region e)
    (h' : InRegion faces region e') (he : walk faces inv region e = walk faces inv region e') : e = e' := by
  have := next_inj (across_region hi h).1 (across_region hi h').1 he
  rw [← across_across hi h, this, across_across hi h']

theorem nextInFace_ok (hi : inverseFaceEdges faces = .ok inv) (ha : faceAdjacency faces = .ok adj) {e : FaceEdge}
    (h : Valid faces e) : nextInFace adj e = .ok (next faces e) := by
  obtain ⟨row, h1, h2, -⟩ := adjacency_row hi ha h
  unfold nextInFace
  rw [h1]
  change (if row.length = 0 then _ else _) = _
  unfold Valid at h
  rw [if_neg (by omega), h2]
  rfl

theorem contourStep_ok (hi : inverseFaceEdges faces = .ok inv) (ha : faceAdjacency faces = .ok adj) {e : FaceEdge}
    (h : InRegion faces region e) :
    contourStep region adj e = .ok (walk faces inv region e, isOuter region (twin inv faces e)) := by
  obtain ⟨row, h1, -, h3⟩ := adjacency_row hi ha h.1
  unfold contourStep
  rw [h1]
  change (match row[e.2]? with | none => _ | some none => _ | some (some other) => _) = _
  rw [h3]
  rcases across_eq (faces := faces) (inv := inv) (region := region) (e := e) with ⟨h4, h5⟩ | ⟨e', h4, h5, h6, h7⟩
  · unfold walk
    rw [h4, h5]
    rcases ht : twin inv faces e with _ | o
    · simp only [nextInFace_ok hi ha h.1]; rfl
    · rw [ht] at h4
      have h4 : region.contains o.1 = false := by simpa [isOuter] using h4
      simp only [h4, nextInFace_ok hi ha h.1]; rfl
  · unfold walk
    rw [h6, h7, h4]
    have h5 : region.contains e'.1 = true := by simpa using h5
    have hv := (twins_valid ((twin_some hi h.1).1 h4)).2
    simp only [h5, nextInFace_ok hi ha hv]; rfl

/-- The walk as a list. -/
theorem contourLoop_ok (hi : inverseFaceEdges faces = .ok inv) (ha : faceAdjacency faces = .ok adj) {first : FaceEdge}
    (hf : InRegion faces region first) {p : Nat} (hp : (walk faces inv region)^[p] first = first)
    (hmin : ∀ k, 0 < k → k < p → (walk faces inv region)^[k] first ≠ first) :
    ∀ (n k : Nat), k < p → p ≤ n + k →
      contourLoop region adj first n ((walk faces inv region)^[k] first) =
        .ok (((List.range' k (p - k)).map fun j => (walk faces inv region)^[j] first).filter
          fun e => isOuter region (twin inv faces e)) := by
  intro n
  induction n with
  | zero => intro k h1 h2; omega
  | succ n ih =>
    intro k h1 h2
    have hin : InRegion faces region ((walk faces inv region)^[k] first) :=
      iterate_mem (P := InRegion faces region) (fun a h => walk_region hi h) hf k
    rw [contourLoop, contourStep_ok hi ha hin]
    have e1 : p - k = (p - (k + 1)) + 1 := by omega
    rw [e1, List.range'_succ, List.map_cons, List.filter_cons]
    by_cases hk : k + 1 = p
    · have h0 : p - (k + 1) = 0 := by omega
      rw [h0, List.range'_zero, List.map_nil, List.filter_nil]
      have hw : walk faces inv region ((walk faces inv region)^[k] first) = first := by
        rw [← Function.iterate_succ_apply' (walk faces inv region)]; subst hk; exact hp
      simp only [lift, bind, Except.bind, hw, if_true]
      rfl
    · have hw : walk faces inv region ((walk faces inv region)^[k] first) ≠ first := by
        rw [← Function.iterate_succ_apply' (walk faces inv region)]; exact hmin (k + 1) (by omega) (by omega)
      have := ih (k + 1) (by omega) (by omega)
      rw [Function.iterate_succ_apply'] at this
      simp only [lift, bind, Except.bind, hw, if_false, this]
      rfl

/-- The edges of the adjacency. -/
def adjEdges (adj : Adjacency) : List FaceEdge := adj.entries.flatMap fun x => (List.range x.2.length).map fun i => (x.1, i)

theorem length_adjEdges (adj : Adjacency) : (adjEdges adj).length = (adj.entries.map (·.2.length)).sum := by
  simp [adjEdges, List.length_flatMap]

theorem mem_adjEdges (hi : inverseFaceEdges faces = .ok inv) (ha : faceAdjacency faces = .ok adj) {e : FaceEdge}
    (h : Valid faces e) : e ∈ adjEdges adj := by
  obtain ⟨row, h1, h2, -⟩ := adjacency_row hi ha h
  rw [Map.at!_ok, Map.get?_eq_some] at h1
  unfold adjEdges
  rw [List.mem_flatMap]
  refine ⟨(e.1, row), h1, List.mem_map.2 ⟨e.2, ?_, rfl⟩⟩
  rw [List.mem_range, h2]
  exact h

/-- The contour of a region with a first boundary edge. -/
theorem contourLoop_spec (hi : inverseFaceEdges faces = .ok inv) (ha : faceAdjacency faces = .ok adj) {first : FaceEdge}
    (hf : InRegion faces region first) :
    ∃ p, 0 < p ∧ (walk faces inv region)^[p] first = first ∧
      ((List.range p).map fun k => (walk faces inv region)^[k] first).Nodup ∧
      contourLoop region adj first ((adj.entries.map (·.2.length)).sum) first =
        .ok (((List.range p).map fun j => (walk faces inv region)^[j] first).filter
          fun e => isOuter region (twin inv faces e)) := by
  obtain ⟨p, h1, h2, h3, h4, h5⟩ := cycle (P := InRegion faces region) (f := walk faces inv region)
    (fun a h => walk_region hi h) (walk_inj hi) (adjEdges adj) (fun a h => mem_adjEdges hi ha h.1) hf
  refine ⟨p, h1, h3, h4, ?_⟩
  have := contourLoop_ok hi ha hf h3 h5 (adj.entries.map (·.2.length)).sum 0 h1 (by rw [← length_adjEdges]; omega)
  rw [Nat.sub_zero, ← List.range_eq_range'] at this
  exact this

/-- The search for a first boundary edge. -/
theorem outerEdge_ok (hi : inverseFaceEdges faces = .ok inv) (ha : faceAdjacency faces = .ok adj)
    (rest : List Nat) (hsub : ∀ f ∈ rest, f ∈ region) (hne : ∀ f ∈ rest, faces.getD f [] ≠ []) :
    (∃ e, outerEdge region adj rest = .ok (some e) ∧ Boundary faces region e) ∨
      (outerEdge region adj rest = .ok none ∧ ∀ e, Boundary faces region e → e.1 ∉ rest) := by
  induction rest with
  | nil => right; exact ⟨rfl, by simp⟩
  | cons f rest ih =>
    have hlen : 0 < (faces.getD f []).length := List.length_pos_iff.2 (hne f List.mem_cons_self)
    have hrow : adj.at! f = .ok ((List.range (faces.getD f []).length).map fun i => twin inv faces (f, i)) := by
      rw [Map.at!_ok, adjacency_get hi ha, if_neg (hne f List.mem_cons_self)]
    unfold outerEdge
    rw [hrow]
    simp only [bind, Except.bind]
    generalize hf : List.findIdx? (isOuter region)
      ((List.range (faces.getD f []).length).map fun i => twin inv faces (f, i)) = o
    rcases o with _ | i
    · simp only
      have hno : ∀ i, Valid faces (f, i) → isOuter region (twin inv faces (f, i)) = false := by
        intro i hv
        rw [List.findIdx?_eq_none_iff] at hf
        exact hf _ (List.mem_map.2 ⟨i, List.mem_range.2 hv, rfl⟩)
      rcases ih (fun g hg => hsub g (List.mem_cons_of_mem _ hg)) (fun g hg => hne g (List.mem_cons_of_mem _ hg))
        with h | ⟨h1, h2⟩
      · exact .inl h
      · refine .inr ⟨h1, fun e hb hm => ?_⟩
        rcases List.mem_cons.1 hm with he | hm
        · have hv : Valid faces e := by
            obtain ⟨d, hd⟩ := Option.isSome_iff_exists.1 hb.2.1
            exact (edge_eq_some.1 hd).1
          have := hno e.2 (by rw [← he]; exact hv)
          rw [← he, (isOuter_boundary hi ⟨hv, hb.1⟩).2 hb] at this
          cases this
        · exact h2 e hb hm
    · left
      rw [List.findIdx?_eq_some_iff_getElem] at hf
      obtain ⟨hlt, h1, -⟩ := hf
      simp only [List.length_map, List.length_range] at hlt
      simp only [List.getElem_map, List.getElem_range] at h1
      refine ⟨(f, i), rfl, ?_⟩
      have hv : Valid faces (f, i) := hlt
      exact (isOuter_boundary hi ⟨hv, hsub f List.mem_cons_self⟩).1 h1

/-- Edges of the walk that are not in the contour end where the next one starts... -/
theorem walk_start (hi : inverseFaceEdges faces = .ok inv) {e : FaceEdge} (h : InRegion faces region e) :
    (isOuter region (twin inv faces e) = true → (dir faces (walk faces inv region e)).1 = (dir faces e).2) ∧
    (isOuter region (twin inv faces e) = false → (dir faces (walk faces inv region e)).1 = (dir faces e).1) := by
  constructor
  · intro ho
    unfold walk across
    rw [ho]
    rfl
  · intro ho
    obtain ⟨e', h1, -⟩ := isOuter_some.1 ho
    have : across faces inv region e = e' := by
      unfold across
      rw [ho, h1]; rfl
    unfold walk
    rw [this]
    obtain ⟨a, b, h2, h3⟩ := (twin_some hi h.1).1 h1
    have e1 := (edge_eq_some.1 h2).2
    have e2 := (edge_eq_some.1 h3).2
    rw [e1]
    change (dir faces e').2 = a
    rw [e2]

end

/-- In a list of edges each of which starts where the one before ends if that is selected, and where it starts
otherwise, the selected ones follow one another. -/
theorem selected_chain {start stop : FaceEdge → Nat} {sel : FaceEdge → Bool} (l : List FaceEdge)
    (h : l.IsChain fun a b => start b = if sel a then stop a else start a) :
    (l.filter sel).IsChain (fun a b => stop a = start b) ∧
    (∀ x ∈ l.head?, ∀ y ∈ (l.filter sel).head?, start y = start x) := by
  induction l with
  | nil => simp
  | cons a l ih =>
    obtain ⟨h1, h2⟩ := ih h.tail
    have hab : ∀ b ∈ l.head?, start b = if sel a then stop a else start a := by
      intro b hb
      rcases l with _ | ⟨c, l⟩
      · cases hb
      · simp only [List.head?_cons, Option.mem_def, Option.some.injEq] at hb
        subst hb
        exact (List.isChain_cons_cons.1 h).1
    by_cases hs : sel a = true
    · rw [List.filter_cons_of_pos hs]
      refine ⟨List.IsChain.cons h1 ?_, by simp⟩
      intro y hy
      rcases l with _ | ⟨c, l⟩
      · simp at hy
      · have := h2 c rfl y hy
        rw [this, hab c rfl, if_pos hs]
    · rw [List.filter_cons_of_neg hs]
      refine ⟨h1, ?_⟩
      intro x hx y hy
      simp only [List.head?_cons, Option.mem_def, Option.some.injEq] at hx
      subst hx
      rcases l with _ | ⟨c, l⟩
      · simp at hy
      · have := h2 c rfl y hy
        rw [this, hab c rfl, if_neg hs]

section
variable {faces : List (List Nat)} {inv : Map (Nat × Nat) FaceEdge} {adj : Adjacency} {region : List Nat}

theorem Boundary.inRegion {e : FaceEdge} (h : Boundary faces region e) : InRegion faces region e := by
  obtain ⟨d, hd⟩ := Option.isSome_iff_exists.1 h.2.1
  exact ⟨(edge_eq_some.1 hd).1, h.1⟩

theorem follows_iff {e e' : FaceEdge} (h : Valid faces e) (h' : Valid faces e') :
    Follows faces e e' ↔ (dir faces e).2 = (dir faces e').1 := by
  constructor
  · rintro ⟨a, b, c, h1, h2⟩
    rw [(edge_eq_some.1 h1).2, (edge_eq_some.1 h2).2]
  · intro he
    exact ⟨(dir faces e).1, (dir faces e).2, (dir faces e').2, edge_eq_some.2 ⟨h, rfl⟩,
      edge_eq_some.2 ⟨h', by rw [he]⟩⟩

/-- The contour of a region. -/
theorem contour_spec (hi : inverseFaceEdges faces = .ok inv) (ha : faceAdjacency faces = .ok adj)
    (hne : ∀ f ∈ region, faces.getD f [] ≠ []) :
    (∃ c, contour region adj = .ok c ∧ c ≠ [] ∧ c.Nodup ∧ (∀ e ∈ c, Boundary faces region e) ∧ Closed faces c) ∨
      (contour region adj = .error (.err .aborts) ∧ ∀ e, ¬ Boundary faces region e) := by
  rcases outerEdge_ok hi ha region (fun _ h => h) hne with ⟨first, h1, hb⟩ | ⟨h1, h2⟩
  · left
    have hr := Boundary.inRegion hb
    obtain ⟨p, hp, hper, hnd, hc⟩ := contourLoop_spec hi ha hr
    have hcont : contour region adj = contourLoop region adj first ((adj.entries.map (·.2.length)).sum) first := by
      unfold contour; rw [h1]; rfl
    refine ⟨_, hcont.trans hc, ?_, hnd.filter _, ?_, ?_⟩
    · have : first ∈ ((List.range p).map fun j => (walk faces inv region)^[j] first).filter
          fun e => isOuter region (twin inv faces e) :=
        List.mem_filter.2 ⟨List.mem_map.2 ⟨0, List.mem_range.2 hp, rfl⟩, (isOuter_boundary hi hr).2 hb⟩
      exact List.ne_nil_of_mem this
    · intro e he
      obtain ⟨he1, he2⟩ := List.mem_filter.1 he
      obtain ⟨k, -, rfl⟩ := List.mem_map.1 he1
      exact (isOuter_boundary hi (iterate_mem (fun a h => walk_region hi h) hr k)).1 he2
    · set l := (List.range p).map fun j => (walk faces inv region)^[j] first with hl
      set sel : FaceEdge → Bool := fun e => isOuter region (twin inv faces e) with hsel
      have hlong : (List.range (p + 1)).map (fun j => (walk faces inv region)^[j] first) = l ++ [first] := by
        rw [List.range_succ, List.map_append, List.map_singleton, hper]
      have hall : ∀ e ∈ l ++ [first], InRegion faces region e := by
        rw [← hlong]
        intro e he
        obtain ⟨k, -, rfl⟩ := List.mem_map.1 he
        exact iterate_mem (fun a h => walk_region hi h) hr k
      have hch : (l ++ [first]).IsChain fun a b =>
          (fun e => (dir faces e).1) b = if sel a then (fun e => (dir faces e).2) a else (fun e => (dir faces e).1) a := by
        rw [← hlong, List.isChain_iff_getElem]
        intro k hk
        simp only [List.length_map, List.length_range] at hk
        simp only [List.getElem_map, List.getElem_range]
        have hin : InRegion faces region ((walk faces inv region)^[k] first) :=
          iterate_mem (fun a h => walk_region hi h) hr k
        rw [Function.iterate_succ_apply']
        obtain ⟨w1, w2⟩ := walk_start hi hin
        by_cases ho : sel ((walk faces inv region)^[k] first) = true
        · rw [if_pos ho, w1 ho]
        · rw [if_neg ho, w2 (by simpa using ho)]
      have hfil : (l ++ [first]).filter sel = l.filter sel ++ [first] := by
        have : sel first = true := (isOuter_boundary hi hr).2 hb
        rw [List.filter_append, List.filter_cons_of_pos this, List.filter_nil]
      have hchain := (selected_chain _ hch).1
      rw [hfil] at hchain
      have hf : ∀ e ∈ l.filter sel ++ [first], Valid faces e := by
        rw [← hfil]
        intro e he
        exact (hall e (List.mem_filter.1 he).1).1
      have hchain' : (l.filter sel ++ [first]).IsChain (Follows faces) := by
        rw [List.isChain_iff_getElem] at hchain ⊢
        intro k hk
        exact (follows_iff (hf _ (List.getElem_mem _)) (hf _ (List.getElem_mem _))).2 (hchain k hk)
      rw [List.isChain_append] at hchain'
      refine ⟨hchain'.1, fun x hx y hy => ?_⟩
      have hhead : (l.filter sel).head? = some first := by
        rcases p with _ | p
        · omega
        · rw [hl, List.range_succ_eq_map, List.map_cons,
            List.filter_cons_of_pos (by exact (isOuter_boundary hi hr).2 hb)]
          rfl
      have : y = first := by rw [hhead] at hy; simpa using hy.symm
      subst this
      exact hchain'.2.2 x hx y (by simp)
  · right
    refine ⟨?_, fun e hb => h2 e hb hb.1⟩
    unfold contour; rw [h1]; rfl

/-- A closed chain of boundary edges is all of the boundary if that is a simple closed curve. -/
theorem closed_complete {c : List FaceEdge} (hne : c ≠ []) (hb : ∀ e ∈ c, Boundary faces region e)
    (hc : Closed faces c)
    (hstart : ∀ e e' a b b', Boundary faces region e → Boundary faces region e' → edge faces e = some (a, b) →
      edge faces e' = some (a, b') → e = e')
    (hconn : ∀ e e', Boundary faces region e → Boundary faces region e' →
      Relation.ReflTransGen (fun x y => Boundary faces region y ∧ Follows faces x y) e e') :
    ∀ e, Boundary faces region e → e ∈ c := by
  have hstep : ∀ x ∈ c, ∀ y, Boundary faces region y → Follows faces x y → y ∈ c := by
    intro x hx y hy hf
    have hsucc : ∃ z ∈ c, Follows faces x z := by
      obtain ⟨k, hk, rfl⟩ := List.mem_iff_getElem.1 hx
      by_cases hlast : k + 1 < c.length
      · exact ⟨c[k + 1], List.getElem_mem _, (List.isChain_iff_getElem.1 hc.1) k hlast⟩
      · refine ⟨c.head hne, List.head_mem hne, hc.2 _ ?_ _ (by rw [List.head?_eq_some_head hne]; rfl)⟩
        rw [List.getLast?_eq_getElem?]
        have : k = c.length - 1 := by omega
        subst this
        simp
    obtain ⟨z, hz, a, b, d, h1, h2⟩ := hsucc
    obtain ⟨a', b', d', h3, h4⟩ := hf
    rw [h1] at h3
    simp only [Option.some.injEq, Prod.mk.injEq] at h3
    obtain ⟨rfl, rfl⟩ := h3
    rw [← hstart z y b d d' (hb z hz) hy h2 h4]
    exact hz
  have hreach : ∀ e, Relation.ReflTransGen (fun x y => Boundary faces region y ∧ Follows faces x y) (c.head hne) e →
      e ∈ c := by
    intro e h
    induction h with
    | refl => exact List.head_mem hne
    | tail _ h ih => exact hstep _ ih _ h.1 h.2
  exact fun e he => hreach e (hconn _ e (hb _ (List.head_mem hne)) he)

end

end Maliput.MeshSimplification
