import Verif.Lemmas.Map
import Verif.Lemmas.Monad
import Verif.Spec.Mesh

set_option autoImplicit false

/-! Lemmas about meshes. -/
namespace Maliput.Mesh

open Spec

variable {T V N : Type} [DecidableEq T] [DecidableEq V] [DecidableEq N]

/-- The map and the vector of an indexer agree. -/
def Indexer.Ok (x : Indexer T) : Prop := x.vector.Nodup ∧ ∀ t i, x.map.get? t = some i ↔ x.vector[i]? = some t

/-- One more element, if it is new. -/
def put (l : List T) (t : T) : List T := if t ∈ l then l else l ++ [t]

theorem Indexer.ok_empty : (Indexer.empty : Indexer T).Ok := by simp [Indexer.Ok, Indexer.empty]

theorem pushBack_ok {x : Indexer T} (h : x.Ok) (t : T) :
    (x.pushBack t).1.Ok ∧ (x.pushBack t).1.vector = put x.vector t ∧
      (x.pushBack t).1.vector[(x.pushBack t).2]? = some t := by
  unfold Indexer.pushBack put
  generalize hg : x.map.get? t = o
  rcases o with _ | i
  · have hn : t ∉ x.vector := by
      intro hm
      obtain ⟨i, hi⟩ := List.getElem?_of_mem hm
      rw [(h.2 t i).2 hi] at hg; cases hg
    refine ⟨⟨?_, ?_⟩, by simp [hn], by simp⟩
    · simp only [List.nodup_append, h.1, List.nodup_cons, List.not_mem_nil, not_false_eq_true, List.nodup_nil, and_self,
        List.mem_cons, or_false, forall_eq, true_and]
      rintro a ha rfl; exact hn ha
    · intro t' i
      simp only
      rw [Map.get?_emplace]
      by_cases ht : t' = t
      · subst ht
        simp only [hg, if_true, Option.some.injEq, true_and]
        rw [List.getElem?_append]
        split
        · next hlt =>
          constructor
          · intro he; omega
          · intro he; exact absurd (List.mem_of_getElem? he) hn
        · next hge =>
          simp only [List.getElem?_singleton]
          split <;> simp <;> omega
      · rw [List.getElem?_append]
        have e := h.2 t' i
        have hlt : x.vector[i]? = some t' → i < x.vector.length := fun he => by
          by_contra hc; rw [List.getElem?_eq_none (by omega)] at he; cases he
        have : ∀ j : Nat, ([t] : List T)[j]? ≠ some t' := by
          intro j hj
          rw [List.getElem?_singleton] at hj
          split at hj
          · cases hj; exact ht rfl
          · cases hj
        simp only [ht, false_and, if_false, e]
        split
        · rfl
        · next hge =>
          simp only [this, iff_false]
          exact fun he => hge (hlt he)
  · have hi := (h.2 t i).1 hg
    exact ⟨h, by simp [List.mem_of_getElem? hi], hi⟩

theorem prefix_put (l : List T) (t : T) : l <+: put l t := by
  unfold put; split
  · exact List.prefix_rfl
  · exact List.prefix_append _ _

theorem prefix_foldl_put (l l' : List T) : l <+: l'.foldl put l := by
  induction l' generalizing l with
  | nil => exact List.prefix_rfl
  | cons t l' ih => exact (prefix_put l t).trans (ih _)

theorem firsts_eq (l : List T) : firsts l = l.foldl put [] := rfl

omit [DecidableEq T] in
theorem getElem?_of_prefix {l l' : List T} (h : l <+: l') {i : Nat} {t : T} (hi : l[i]? = some t) : l'[i]? = some t := by
  obtain ⟨r, rfl⟩ := h
  rw [List.getElem?_append_left]
  · exact hi
  · by_contra hc; rw [List.getElem?_eq_none (by omega)] at hi; cases hi

/-- Decoding a face with the stored vertices and normals. -/
def decode (vs : List V) (ns : List N) (f : IndexFace) : List (Option V × Option N) :=
  f.map fun ij => (vs[ij.1]?, ns[ij.2]?)

/-- The vertices and normals as decoding them should give. -/
def wanted (l : List (V × N)) : List (Option V × Option N) := l.map fun vn => (some vn.1, some vn.2)

omit [DecidableEq V] [DecidableEq N] in
theorem decode_prefix {vs vs' : List V} {ns ns' : List N} (hv : vs <+: vs') (hn : ns <+: ns') {f : IndexFace}
    {l : List (V × N)} (h : decode vs ns f = wanted l) : decode vs' ns' f = wanted l := by
  induction f generalizing l with
  | nil => simpa [decode] using h
  | cons ij f ih =>
    rcases l with _ | ⟨⟨v, n⟩, l⟩
    · simp [decode, wanted] at h
    · simp only [decode, wanted, List.map_cons, List.cons.injEq, Prod.mk.injEq] at h ⊢
      exact ⟨⟨getElem?_of_prefix hv h.1.1, getElem?_of_prefix hn h.1.2⟩, ih h.2⟩

theorem pushVertices_ok (l : List (V × N)) : ∀ {vs : Indexer V} {ns : Indexer N}, vs.Ok → ns.Ok →
    (pushVertices vs ns l).1.Ok ∧ (pushVertices vs ns l).2.1.Ok ∧
    (pushVertices vs ns l).1.vector = (l.map (·.1)).foldl put vs.vector ∧
    (pushVertices vs ns l).2.1.vector = (l.map (·.2)).foldl put ns.vector ∧
    decode (pushVertices vs ns l).1.vector (pushVertices vs ns l).2.1.vector (pushVertices vs ns l).2.2 = wanted l := by
  induction l with
  | nil => intro vs ns hv hn; exact ⟨hv, hn, rfl, rfl, rfl⟩
  | cons vn l ih =>
    intro vs ns hv hn
    obtain ⟨v, n⟩ := vn
    obtain ⟨hv1, hv2, hv3⟩ := pushBack_ok hv v
    obtain ⟨hn1, hn2, hn3⟩ := pushBack_ok hn n
    obtain ⟨h1, h2, h3, h4, h5⟩ := ih hv1 hn1
    simp only [pushVertices]
    refine ⟨h1, h2, ?_, ?_, ?_⟩
    · rw [h3, hv2]; rfl
    · rw [h4, hn2]; rfl
    · simp only [decode, wanted, List.map_cons, List.cons.injEq, Prod.mk.injEq]
      refine ⟨⟨getElem?_of_prefix ?_ hv3, getElem?_of_prefix ?_ hn3⟩, h5⟩
      · rw [h3]; exact prefix_foldl_put _ _
      · rw [h4]; exact prefix_foldl_put _ _

/-- What holds of a mesh that was given the faces `fs`. -/
structure Holds (m : GeoMesh V N) (fs : List (List (V × N))) : Prop where
  vertices : m.vertices.Ok
  normals : m.normals.Ok
  vs : m.vertices.vector = firsts (fs.flatMap (·.map (·.1)))
  ns : m.normals.vector = firsts (fs.flatMap (·.map (·.2)))
  faces : m.faces.map (decode m.vertices.vector m.normals.vector) = fs.map wanted

theorem holds_empty : Holds (.empty : GeoMesh V N) [] :=
  ⟨Indexer.ok_empty, Indexer.ok_empty, rfl, rfl, rfl⟩

omit [DecidableEq V] [DecidableEq N] in
theorem map_decode_prefix {vs vs' : List V} {ns ns' : List N} (hv : vs <+: vs') (hn : ns <+: ns') {fs : List IndexFace}
    {ls : List (List (V × N))} (h : fs.map (decode vs ns) = ls.map wanted) :
    fs.map (decode vs' ns') = ls.map wanted := by
  induction fs generalizing ls with
  | nil => simpa using h
  | cons f fs ih =>
    rcases ls with _ | ⟨l, ls⟩
    · simp at h
    · simp only [List.map_cons, List.cons.injEq] at h ⊢
      exact ⟨decode_prefix hv hn h.1, ih h.2⟩

theorem holds_addFace {m : GeoMesh V N} {fs : List (List (V × N))} (h : Holds m fs) (l : List (V × N)) :
    Holds (m.addFace l) (fs ++ [l]) := by
  obtain ⟨h1, h2, h3, h4, h5⟩ := pushVertices_ok l h.vertices h.normals
  refine ⟨h1, h2, ?_, ?_, ?_⟩
  · simp only [GeoMesh.addFace, h3, h.vs, firsts_eq, List.flatMap_append, List.foldl_append, List.flatMap_cons,
      List.flatMap_nil, List.append_nil]
  · simp only [GeoMesh.addFace, h4, h.ns, firsts_eq, List.flatMap_append, List.foldl_append, List.flatMap_cons,
      List.flatMap_nil, List.append_nil]
  · simp only [GeoMesh.addFace, List.map_append, List.map_cons, List.map_nil, h5]
    rw [map_decode_prefix (by rw [h3]; exact prefix_foldl_put _ _) (by rw [h4]; exact prefix_foldl_put _ _) h.faces]

omit [DecidableEq V] [DecidableEq N] in
theorem deref_face {o : GeoMesh V N} {f : IndexFace} {l : List (V × N)}
    (h : decode o.vertices.vector o.normals.vector f = wanted l) : f.mapM o.deref = .ok l := by
  apply mapM_of_forall₂
  induction f generalizing l with
  | nil =>
    rcases l with _ | ⟨x, l⟩
    · exact .nil
    · simp [decode, wanted] at h
  | cons ij f ih =>
    rcases l with _ | ⟨⟨v, n⟩, l⟩
    · simp [decode, wanted] at h
    · simp only [decode, wanted, List.map_cons, List.cons.injEq, Prod.mk.injEq] at h
      refine .cons ?_ (ih h.2)
      simp [GeoMesh.deref, h.1.1, h.1.2]

theorem addFacesFrom_ok {o : GeoMesh V N} (faces : List IndexFace) : ∀ {m : GeoMesh V N} {fs fo : List (List (V × N))},
    Holds m fs → faces.map (decode o.vertices.vector o.normals.vector) = fo.map wanted →
    ∃ m', faces.foldlM (fun m f => do
      let l ← f.mapM o.deref
      return GeoMesh.addFace m l) m = (.ok m' : Except Err _) ∧ Holds m' (fs ++ fo) := by
  induction faces with
  | nil =>
    intro m fs fo h hf
    rcases fo with _ | ⟨x, fo⟩
    · exact ⟨m, rfl, by simpa using h⟩
    · simp at hf
  | cons f faces ih =>
    intro m fs fo h hf
    rcases fo with _ | ⟨l, fo⟩
    · simp at hf
    · simp only [List.map_cons, List.cons.injEq] at hf
      obtain ⟨m', h1, h2⟩ := ih (holds_addFace h l) hf.2
      refine ⟨m', ?_, by simpa using h2⟩
      rw [List.foldlM_cons, deref_face hf.1]
      exact h1

omit [DecidableEq V] [DecidableEq N] in
theorem pairs_ok {f : GeoFace V N} (h : f.vertices.length = f.normals.length) :
    f.pairs = .ok (f.vertices.zip f.normals) := by simp [GeoFace.pairs, h]

theorem holds_of_built {m : GeoMesh V N} {fs : List (List (V × N))} (h : Built m fs) : Holds m fs := by
  induction h with
  | new => exact holds_empty
  | push f h hf hm ih =>
    simp only [GeoMesh.pushFace, pairs_ok hf, bind_ok, pure_ok, Except.ok.injEq, exists_eq_left'] at hm
    subst hm
    exact holds_addFace ih _
  | add h ho hm ih1 ih2 =>
    obtain ⟨m', h1, h2⟩ := addFacesFrom_ok _ ih1 ih2.faces
    unfold GeoMesh.addFacesFrom at hm
    rw [hm] at h1
    cases h1
    exact h2

theorem mem_foldl_put {l acc : List T} {t : T} : t ∈ l.foldl put acc ↔ t ∈ acc ∨ t ∈ l := by
  induction l generalizing acc with
  | nil => simp
  | cons x l ih =>
    rw [List.foldl_cons, ih]
    unfold put
    split
    · next h =>
      constructor
      · rintro (h' | h') <;> simp [h']
      · rintro (h' | h')
        · exact .inl h'
        · rcases List.mem_cons.1 h' with rfl | h'
          · exact .inl h
          · exact .inr h'
    · simp [or_assoc]

/-! ### OBJ files -/

theorem oneBased_succ {α : Type} (l : List α) (i : Nat) : oneBased l (i + 1) = l[i]? := by simp [oneBased]

omit [DecidableEq V] [DecidableEq N] in
theorem lines_emit (m : GeoMesh V N) (h : m.faces ≠ []) (material : String) (vo no : Nat) :
    vLines (m.emitObj material vo no).1 = m.vertices.vector ∧
    vnLines (m.emitObj material vo no).1 = m.normals.vector ∧
    fLines (m.emitObj material vo no).1 =
      m.faces.map (fun f => f.map fun ij => (ij.1 + 1 + vo, ij.2 + 1 + no)) := by
  have e : m.faces.isEmpty = false := by simpa using h
  have f : m.faces.map (fun f => (Line.f (f.map fun ij => (ij.1 + 1 + vo, ij.2 + 1 + no)) : Line V N)) =
      (m.faces.map (fun f => f.map fun ij => (ij.1 + 1 + vo, ij.2 + 1 + no))).map .f := by
    rw [List.map_map]; rfl
  simp only [GeoMesh.emitObj, e, Bool.false_eq_true, if_false, vLines, vnLines, fLines, List.filterMap_append, f]
  split <;> simp

/-- Reading the faces of an output with other vertices and normals. -/
def readWith (vs : List V) (ns : List N) (fs : List (List (Nat × Nat))) : List (List (Option V × Option N)) :=
  fs.map (·.map fun ij => (oneBased vs ij.1, oneBased ns ij.2))

omit [DecidableEq V] [DecidableEq N] in
theorem readWith_own {vs : List V} {ns : List N} (a c : List V) (b d : List N) {faces : List IndexFace}
    {fo : List (List (V × N))} (h : faces.map (decode vs ns) = fo.map wanted) :
    readWith (a ++ vs ++ c) (b ++ ns ++ d)
      (faces.map (fun f => f.map fun ij => (ij.1 + 1 + a.length, ij.2 + 1 + b.length))) = fo.map wanted := by
  rw [← h]
  unfold readWith
  rw [List.map_map]
  have hget : ∀ f ∈ faces, ∀ ij ∈ f, ij.1 < vs.length ∧ ij.2 < ns.length := by
    intro f hf ij hij
    have : decode vs ns f ∈ fo.map wanted := by rw [← h]; exact List.mem_map.2 ⟨f, hf, rfl⟩
    obtain ⟨l, -, hl⟩ := List.mem_map.1 this
    have : (vs[ij.1]?, ns[ij.2]?) ∈ wanted l := by rw [hl]; exact List.mem_map.2 ⟨ij, hij, rfl⟩
    obtain ⟨vn, -, e⟩ := List.mem_map.1 this
    simp only [Prod.mk.injEq] at e
    obtain ⟨h1, -⟩ := List.getElem?_eq_some_iff.1 e.1.symm
    obtain ⟨h2, -⟩ := List.getElem?_eq_some_iff.1 e.2.symm
    exact ⟨h1, h2⟩
  refine List.map_congr_left fun f hf => ?_
  simp only [Function.comp, List.map_map, decode]
  refine List.map_congr_left fun ij hij => ?_
  obtain ⟨h1, h2⟩ := hget f hf ij hij
  simp only [Function.comp]
  have e1 : ij.1 + 1 + a.length = (a.length + ij.1) + 1 := by omega
  have e2 : ij.2 + 1 + b.length = (b.length + ij.2) + 1 := by omega
  rw [e1, e2, oneBased_succ, oneBased_succ, List.append_assoc, List.append_assoc,
    List.getElem?_append_right (l₁ := a) (by omega), List.getElem?_append_right (l₁ := b) (by omega),
    Nat.add_sub_cancel_left, Nat.add_sub_cancel_left, List.getElem?_append_left h1, List.getElem?_append_left h2]

omit [DecidableEq V] [DecidableEq N] in
theorem readWith_append (vs : List V) (ns : List N) (a b : List (List (Nat × Nat))) :
    readWith vs ns (a ++ b) = readWith vs ns a ++ readWith vs ns b := by simp [readWith]

theorem emitAll_ok (ms : List (GeoMesh V N × String)) : ∀ (a : List V) (b : List N) (fss : List (List (List (V × N)))),
    List.Forall₂ (fun m fs => Holds m.1 fs) ms fss →
    readWith (a ++ vLines (emitAll a.length b.length ms)) (b ++ vnLines (emitAll a.length b.length ms))
      (fLines (emitAll a.length b.length ms)) = (fss.flatten).map wanted := by
  induction ms with
  | nil => intro a b fss h; cases h; rfl
  | cons mm ms ih =>
    intro a b fss h
    obtain ⟨m, material⟩ := mm
    cases h with
    | cons h1 h2 =>
      rename_i fs fss
      by_cases he : m.faces = []
      · have : m.emitObj material a.length b.length = ([], a.length, b.length) := by
          simp [GeoMesh.emitObj, he]
        simp only [emitAll, this, List.nil_append]
        have hfs : fs = [] := by
          have := h1.faces
          simp only [he, List.map_nil] at this
          exact List.map_eq_nil_iff.1 this.symm
        rw [ih a b fss h2, hfs]
        rfl
      · obtain ⟨e1, e2, e3⟩ := lines_emit m he material a.length b.length
        have e4 : (m.emitObj material a.length b.length).2 =
            ((a ++ m.vertices.vector).length, (b ++ m.normals.vector).length) := by
          have e : m.faces.isEmpty = false := by simpa using he
          simp [GeoMesh.emitObj, e]
        have h3 := ih (a ++ m.vertices.vector) (b ++ m.normals.vector) fss h2
        simp only [emitAll, e4]
        have split : ∀ x y : List (Line V N), vLines (x ++ y) = vLines x ++ vLines y ∧
            vnLines (x ++ y) = vnLines x ++ vnLines y ∧ fLines (x ++ y) = fLines x ++ fLines y := by
          intro x y; simp [vLines, vnLines, fLines]
        obtain ⟨s1, s2, s3⟩ := split (m.emitObj material a.length b.length).1
          (emitAll (a ++ m.vertices.vector).length (b ++ m.normals.vector).length ms)
        rw [s1, s2, s3, e1, e2, e3, readWith_append, ← List.append_assoc, ← List.append_assoc, h3,
          readWith_own _ _ _ _ h1.faces]
        simp

end Maliput.Mesh
