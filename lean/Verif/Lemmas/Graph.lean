import Mathlib.Data.List.Nodup
import Mathlib.Data.List.Perm.Subperm
import Verif.Spec.Graph

set_option autoImplicit false

namespace Maliput.RouteGraph
open Maliput.Topo

theorem foldlM_append {ε α β : Type} (f : α → Except ε (List β)) (g : α → List β) (xs : List α)
    (h : ∀ x ∈ xs, f x = .ok (g x)) (acc : List β)
    (step : List β → α → Except ε (List β)) (hs : ∀ acc x, step acc x = (f x).map (acc ++ ·)) :
    xs.foldlM step acc = .ok (acc ++ xs.flatMap g) := by
  induction xs generalizing acc with
  | nil => simp [pure, Except.pure]
  | cons x xs ih =>
    rw [List.foldlM_cons, hs, h x (by simp)]
    simp only [Except.map, bind, Except.bind]
    rw [ih (fun y hy => h y (by simp [hy]))]
    simp [List.flatMap_cons]

theorem nodup_map_inj {α β : Type} {f : α → β} {xs : List α} (h : (xs.map f).Nodup) {a b : α}
    (ha : a ∈ xs) (hb : b ∈ xs) (hab : f a = f b) : a = b := List.inj_on_of_nodup_map h ha hb hab

theorem edgeAt_mem {g : Graph} (hg : g.WellFormed) {e : Edge} (he : e ∈ g.edges) : g.edgeAt e.id = .ok e := by
  unfold Graph.edgeAt
  rcases h : g.edges.find? (fun x => x.id == e.id) with _ | e'
  · rw [List.find?_eq_none] at h
    exact absurd (by simp) (h e he)
  · have h1 : e'.id = e.id := by simpa using List.find?_some h
    have := nodup_map_inj hg.edgeIds (List.mem_of_find?_eq_some h) he h1
    rw [h, this]

theorem nodeAt_mem {g : Graph} (hg : g.WellFormed) {n : Node} (hn : n ∈ g.nodes) : g.nodeAt n.id = .ok n := by
  unfold Graph.nodeAt
  rcases h : g.nodes.find? (fun x => x.id == n.id) with _ | n'
  · rw [List.find?_eq_none] at h
    exact absurd (by simp) (h n hn)
  · have h1 : n'.id = n.id := by simpa using List.find?_some h
    have := nodup_map_inj hg.nodeIds (List.mem_of_find?_eq_some h) hn h1
    rw [h, this]

/-- The node at the other end. -/
def otherEnd (e : Edge) (x : Nat) : Nat := if e.nodeA = x then e.nodeB else e.nodeA

theorem joins_otherEnd {e : Edge} {x : Nat} (h : e.nodeA = x ∨ e.nodeB = x) : e.Joins x (otherEnd e x) := by
  unfold otherEnd Edge.Joins
  by_cases ha : e.nodeA = x
  · simp [ha]
  · simp [ha, h.resolve_left ha]

theorem otherEnd_of_joins {e : Edge} {x y : Nat} (h : e.Joins x y) (hne : y ≠ x) : otherEnd e x = y := by
  unfold otherEnd
  rcases h with ⟨ha, hb⟩ | ⟨ha, hb⟩
  · simp [ha, hb]
  · rw [if_neg (by rw [ha]; exact hne), ha]

theorem walk_head {g : Graph} {x : Nat} {p : List Edge} {ns : List Nat} (h : Walk g x p ns) :
    ∃ t, ns = x :: t := by cases h <;> exact ⟨_, rfl⟩

/-- What the helper finds. -/
def Found (g : Graph) (end_ : Nat) (start : Nat) (visited : List Nat) (p : List Edge) : Prop :=
  ∃ ns, Walk g start p (start :: ns) ∧ ns.getLast? = some end_ ∧ ns.Nodup ∧ ∀ x ∈ ns, x ∉ visited

theorem found_cons {g : Graph} {end_ start : Nat} {visited : List Nat} {p : List Edge}
    (h : Found g end_ start visited p) (hs : start ∈ visited) :
    ∃ e q y, p = e :: q ∧ e ∈ g.edges ∧ e.Joins start y ∧ y ∉ visited ∧ otherEnd e start = y ∧
      ((y = end_ ∧ q = []) ∨ (y ≠ end_ ∧ Found g end_ y (visited ++ [y]) q)) := by
  obtain ⟨ns, hw, hlast, hnd, hnv⟩ := h
  cases hw with
  | nil => simp at hlast
  | @cons _ y e es ns' he hj hw =>
    obtain ⟨t, rfl⟩ := walk_head hw
    have hy : y ∉ visited := hnv y (by simp)
    have hne : y ≠ start := fun h => hy (h ▸ hs)
    refine ⟨e, es, y, rfl, he, hj, hy, otherEnd_of_joins hj hne, ?_⟩
    by_cases hye : y = end_
    · left
      refine ⟨hye, ?_⟩
      cases hw with
      | nil => rfl
      | @cons _ z e' es' ns'' he' hj' hw' =>
        exfalso
        obtain ⟨t', rfl⟩ := walk_head hw'
        rw [List.getLast?_cons_cons] at hlast
        have : end_ ∈ z :: t' := List.mem_of_getLast? hlast
        exact (List.nodup_cons.1 hnd).1 (hye ▸ this)
    · right
      refine ⟨hye, t, hw, ?_, (List.nodup_cons.1 hnd).2, ?_⟩
      · match t, hlast with
        | [], hlast => simp at hlast; exact absurd hlast hye
        | z :: t', hlast => rwa [List.getLast?_cons_cons] at hlast
      · intro x hx
        rw [List.mem_append, List.mem_singleton]
        rintro (h | rfl)
        · exact hnv x (by simp [hx]) h
        · exact (List.nodup_cons.1 hnd).1 hx

theorem found_of_cons {g : Graph} {end_ start : Nat} {visited : List Nat} {e : Edge} {q : List Edge} {y : Nat}
    (he : e ∈ g.edges) (hj : e.Joins start y) (hy : y ∉ visited)
    (h : (y = end_ ∧ q = []) ∨ (y ≠ end_ ∧ Found g end_ y (visited ++ [y]) q)) :
    Found g end_ start visited (e :: q) := by
  rcases h with ⟨rfl, rfl⟩ | ⟨hne, ns, hw, hlast, hnd, hnv⟩
  · exact ⟨[y], .cons he hj (.nil y), by simp, by simp, by simpa using hy⟩
  · refine ⟨y :: ns, .cons he hj hw, ?_, List.nodup_cons.2 ⟨fun h => hnv y h (by simp), hnd⟩, ?_⟩
    · match ns, hlast with
      | z :: t, hlast => rwa [List.getLast?_cons_cons]
    · intro x hx
      rcases List.mem_cons.1 hx with rfl | hx
      · exact hy
      · exact fun h => hnv x hx (by simp [h])

theorem edgeHelper_spec {g : Graph} (hg : g.WellFormed) (end_ : Nat) :
    ∀ (n : Nat) (start : Node) (visited : List Nat), start ∈ g.nodes → start.id ∈ visited → visited.Nodup →
      visited ⊆ g.nodes.map Node.id → g.nodes.length < n + visited.length →
      ∃ r, edgeSequencesHelper g end_ n start visited = .ok r ∧
        ∀ p, p ∈ r ↔ Found g end_ start.id visited p := by
  intro n
  induction n with
  | zero =>
    intro start visited _ _ hv hsub hlt
    have := (List.Nodup.subperm hv hsub).length_le
    rw [List.length_map] at this
    omega
  | succ n ih =>
    intro start visited hstart hsv hv hsub hlt
    unfold edgeSequencesHelper
    let f : String → Except Stop (List (List Edge)) := fun edgeId => do
      let edge ← lift (g.edgeAt edgeId)
      let next ← lift (g.nodeAt (if edge.nodeA = start.id then edge.nodeB else edge.nodeA))
      if next.id ∈ visited then return []
      else if next.id = end_ then return [[edge]]
      else do
        let subs ← edgeSequencesHelper g end_ n next (setInsert visited next.id)
        return subs.map (edge :: ·)
    have hf : ∀ id ∈ start.edges, ∃ r, f id = .ok r ∧
        ∀ p, p ∈ r ↔ (Found g end_ start.id visited p ∧ ∃ e q, p = e :: q ∧ e.id = id) := by
      intro id hid
      obtain ⟨e, he, rfl, hinc⟩ := (hg.incident start hstart id).1 hid
      obtain ⟨nx, hnx, hnxid⟩ : ∃ nx ∈ g.nodes, nx.id = otherEnd e start.id := by
        unfold otherEnd
        obtain ⟨⟨na, hna, hna'⟩, ⟨nb, hnb, hnb'⟩⟩ := hg.ends e he
        split
        · exact ⟨nb, hnb, hnb'⟩
        · exact ⟨na, hna, hna'⟩
      have e1 : g.edgeAt e.id = .ok e := edgeAt_mem hg he
      have e2 : g.nodeAt (if e.nodeA = start.id then e.nodeB else e.nodeA) = .ok nx := by
        have := nodeAt_mem hg hnx
        rw [hnxid] at this
        exact this
      have hj : e.Joins start.id nx.id := hnxid ▸ joins_otherEnd hinc
      have hfe : f e.id = (if nx.id ∈ visited then .ok []
          else if nx.id = end_ then .ok [[e]]
          else do
            let subs ← edgeSequencesHelper g end_ n nx (setInsert visited nx.id)
            return subs.map (e :: ·)) := by
        simp only [f, e1, e2, lift, bind, Except.bind, pure, Except.pure]
      by_cases hxv : nx.id ∈ visited
      · refine ⟨[], by rw [hfe, if_pos hxv], fun p => ⟨by simp, ?_⟩⟩
        rintro ⟨hfound, e', q, rfl, heq⟩
        obtain ⟨e'', q', y, heq', he'', hj', hy, hoe, -⟩ := found_cons hfound hsv
        simp only [List.cons.injEq] at heq'
        obtain ⟨rfl, rfl⟩ := heq'
        have := nodup_map_inj hg.edgeIds he'' he heq
        subst this
        rw [hnxid, hoe] at hxv
        exact absurd hxv hy
      by_cases hxe : nx.id = end_
      · refine ⟨[[e]], by rw [hfe, if_neg hxv, if_pos hxe], fun p => ?_⟩
        constructor
        · intro hp
          rw [List.mem_singleton] at hp
          subst hp
          exact ⟨found_of_cons he hj hxv (.inl ⟨hxe, rfl⟩), e, [], rfl, rfl⟩
        · rintro ⟨hfound, e', q, rfl, heq⟩
          obtain ⟨e'', q', y, heq', he'', hj', hy, hoe, hor⟩ := found_cons hfound hsv
          simp only [List.cons.injEq] at heq'
          obtain ⟨rfl, rfl⟩ := heq'
          have := nodup_map_inj hg.edgeIds he'' he heq
          subst this
          rcases hor with ⟨-, rfl⟩ | ⟨hne, -⟩
          · simp
          · exact absurd (by rw [← hoe, ← hnxid, hxe]) hne
      · have hins : setInsert visited nx.id = visited ++ [nx.id] := by simp [setInsert, hxv]
        have hv' : (visited ++ [nx.id]).Nodup := by
          rw [List.nodup_append]
          refine ⟨hv, by simp, ?_⟩
          intro a ha b hb hab
          rw [List.mem_singleton] at hb
          subst hb; subst hab; exact hxv ha
        obtain ⟨r, hr, hrs⟩ := ih nx (visited ++ [nx.id]) hnx (by simp) hv'
          (by intro y hy
              rcases List.mem_append.1 hy with h | h
              · exact hsub h
              · rw [List.mem_singleton] at h; subst h; exact List.mem_map.2 ⟨nx, hnx, rfl⟩)
          (by simp; omega)
        refine ⟨r.map (e :: ·), by
          rw [hfe, if_neg hxv, if_neg hxe, hins, hr]; rfl, fun p => ?_⟩
        rw [List.mem_map]
        constructor
        · rintro ⟨q, hq, rfl⟩
          exact ⟨found_of_cons he hj hxv (.inr ⟨hxe, (hrs q).1 hq⟩), e, q, rfl, rfl⟩
        · rintro ⟨hfound, e', q, rfl, heq⟩
          obtain ⟨e'', q', y, heq', he'', hj', hy, hoe, hor⟩ := found_cons hfound hsv
          simp only [List.cons.injEq] at heq'
          obtain ⟨rfl, rfl⟩ := heq'
          have := nodup_map_inj hg.edgeIds he'' he heq
          subst this
          have hyn : y = nx.id := by rw [hnxid, hoe]
          subst hyn
          rcases hor with ⟨h, -⟩ | ⟨-, h⟩
          · exact absurd h hxe
          · exact ⟨q, (hrs q).2 h, rfl⟩
    have hg' : ∀ x ∈ start.edges, f x = .ok ((f x).toOption.getD []) := by
      intro x hx
      obtain ⟨r, hr, -⟩ := hf x hx
      rw [hr]; rfl
    refine ⟨_, foldlM_append f (fun x => (f x).toOption.getD []) _ hg' [] _ ?_, ?_⟩
    · intro acc x
      simp only [f, bind, Except.bind]
      rcases lift (g.edgeAt x) with _ | e
      · rfl
      dsimp only
      rcases lift (g.nodeAt (if e.nodeA = start.id then e.nodeB else e.nodeA)) with _ | nx
      · rfl
      dsimp only
      split
      · simp [pure, Except.pure, Except.map]
      split
      · simp [pure, Except.pure, Except.map]
      rcases edgeSequencesHelper g end_ n nx (setInsert visited nx.id) with _ | s <;> rfl
    · intro p
      rw [List.nil_append, List.mem_flatMap]
      constructor
      · rintro ⟨x, hx, hp⟩
        obtain ⟨r, hr, hrs⟩ := hf x hx
        rw [hr] at hp
        exact ((hrs p).1 hp).1
      · intro hp
        obtain ⟨e, q, y, rfl, he, hj, -, -, -⟩ := found_cons hp hsv
        have hid : e.id ∈ start.edges :=
          (hg.incident start hstart e.id).2 ⟨e, he, rfl, by rcases hj with h | h <;> simp [h]⟩
        obtain ⟨r, hr, hrs⟩ := hf e.id hid
        exact ⟨e.id, hid, by rw [hr]; exact (hrs _).2 ⟨hp, e, q, rfl, rfl⟩⟩

theorem foldlM_ok_mono {ε α β : Type} {f f' : β → α → Except ε β}
    (h : ∀ acc x r, f acc x = .ok r → f' acc x = .ok r) (xs : List α) :
    ∀ acc r, xs.foldlM f acc = .ok r → xs.foldlM f' acc = .ok r := by
  induction xs with
  | nil => intro acc r; exact id
  | cons x xs ih =>
    intro acc r hr
    rw [List.foldlM_cons] at hr ⊢
    rcases ha : f acc x with e | a
    · rw [ha] at hr; simp [bind, Except.bind] at hr
    · rw [ha] at hr
      rw [h _ _ _ ha]
      exact ih _ _ hr

theorem edgeHelper_mono {g : Graph} {end_ : Nat} {n : Nat} {start : Node} {visited : List Nat}
    {r : List (List Edge)} (h : edgeSequencesHelper g end_ n start visited = .ok r) :
    edgeSequencesHelper g end_ (n + 1) start visited = .ok r := by
  induction n generalizing start visited r with
  | zero => simp [edgeSequencesHelper] at h
  | succ n ih =>
    unfold edgeSequencesHelper at h ⊢
    refine foldlM_ok_mono ?_ _ _ _ h
    intro acc x r hx
    simp only [bind, Except.bind] at hx ⊢
    rcases he : lift (g.edgeAt x) with _ | e
    · rw [he] at hx; exact hx
    rw [he] at hx
    dsimp only at hx ⊢
    rcases hn : lift (g.nodeAt (if e.nodeA = start.id then e.nodeB else e.nodeA)) with _ | nx
    · rw [hn] at hx; exact hx
    rw [hn] at hx
    dsimp only at hx ⊢
    split
    · rename_i h1; rw [if_pos h1] at hx; exact hx
    rename_i h1
    rw [if_neg h1] at hx
    split
    · rename_i h2; rw [if_pos h2] at hx; exact hx
    rename_i h2
    rw [if_neg h2] at hx
    rcases hs : edgeSequencesHelper g end_ n nx (setInsert visited nx.id) with _ | s
    · rw [hs] at hx; simp at hx
    · rw [hs] at hx
      rw [ih hs]
      exact hx

theorem found_iff {g : Graph} {start end_ : Nat} (hne : start ≠ end_) (p : List Edge) :
    Found g end_ start [start] p ↔ IsEdgeSequence g start end_ p := by
  constructor
  · rintro ⟨ns, hw, hlast, hnd, hnv⟩
    refine ⟨start :: ns, hw, List.nodup_cons.2 ⟨fun h => hnv start h (by simp), hnd⟩, ?_⟩
    match ns, hlast with
    | z :: t, hlast => rwa [List.getLast?_cons_cons]
  · rintro ⟨ns, hw, hnd, hlast⟩
    obtain ⟨t, rfl⟩ := walk_head hw
    refine ⟨t, hw, ?_, (List.nodup_cons.1 hnd).2, ?_⟩
    · match t, hlast with
      | [], hlast => simp at hlast; exact absurd hlast hne
      | z :: t', hlast => rwa [List.getLast?_cons_cons] at hlast
    · intro x hx h
      rw [List.mem_singleton] at h
      subst h
      exact (List.nodup_cons.1 hnd).1 hx

/-! ### Drivability -/

theorem walk_consecutive {g : Graph} {x : Nat} {p : List Edge} {ns : List Nat} (h : Walk g x p ns) :
    (∀ e ∈ p, e ∈ g.edges) ∧ (∀ e rest, p = e :: rest → e.nodeA = x ∨ e.nodeB = x) := by
  induction h with
  | nil x => simp
  | @cons x y e es ns he hj hw ih =>
    refine ⟨?_, ?_⟩
    · intro e' he'
      rcases List.mem_cons.1 he' with rfl | h
      · exact he
      · exact ih.1 _ h
    · intro e' rest heq
      simp only [List.cons.injEq] at heq
      obtain ⟨rfl, rfl⟩ := heq
      rcases hj with h | h <;> simp [h]

/-- Consecutive edges of a walk share a node. -/
def Adjacent (e f : Edge) : Prop :=
  e.nodeA = f.nodeA ∨ e.nodeA = f.nodeB ∨ e.nodeB = f.nodeA ∨ e.nodeB = f.nodeB

theorem walk_adjacent {g : Graph} {x : Nat} {p : List Edge} {ns : List Nat} (h : Walk g x p ns) :
    p.IsChain Adjacent := by
  induction h with
  | nil x => exact .nil
  | @cons x y e es ns he hj hw ih =>
    match es, hw, ih with
    | [], _, _ => exact .singleton _
    | f :: rest, hw, ih =>
      refine .cons_cons ?_ ih
      have := (walk_consecutive hw).2 f rest rfl
      unfold Adjacent
      rcases hj with ⟨h1, h2⟩ | ⟨h1, h2⟩ <;> rcases this with h | h <;> omega

theorem fromOpposingSides_total (net : Net) {e f : Edge} (h : Adjacent e f) :
    ∃ b, fromOpposingSides net e f = .ok b := by
  have hb : ∃ cs, buildConnectionSet e f = .ok cs := by
    unfold buildConnectionSet
    rcases h with h | h | h | h <;> (repeat' split) <;> exact ⟨_, rfl⟩
  obtain ⟨cs, hcs⟩ := hb
  unfold fromOpposingSides
  rw [hcs]
  simp only [bind, Except.bind]
  split <;> exact ⟨_, rfl⟩

theorem drivableLoop_total (net : Net) (rest : List Edge) :
    ∀ e, (e :: rest).IsChain Adjacent → ∃ b, drivableLoop net e rest = .ok b ∧
      (b = true ↔ (e :: rest).IsChain (fun e f => fromOpposingSides net e f = .ok true)) := by
  induction rest with
  | nil => intro e _; exact ⟨true, rfl, by simp⟩
  | cons f rest ih =>
    intro e h
    rw [List.isChain_cons_cons] at h
    obtain ⟨b, hb⟩ := fromOpposingSides_total net h.1
    obtain ⟨b', hb', hs⟩ := ih f h.2
    rw [List.isChain_cons_cons]
    simp only [drivableLoop, hb, bind, Except.bind]
    cases b
    · exact ⟨false, rfl, by simp⟩
    · exact ⟨b', hb', by simp [hs]⟩

theorem filterM_spec {α : Type} (f : α → Except Err Bool) (P : α → Prop) (xs : List α)
    (h : ∀ x ∈ xs, ∃ b, f x = .ok b ∧ (b = true ↔ P x)) :
    ∃ r, xs.filterM f = .ok r ∧ ∀ x, x ∈ r ↔ x ∈ xs ∧ P x := by
  suffices H : ∀ acc, ∃ r, List.filterAuxM f xs acc = .ok r ∧ ∀ x, x ∈ r ↔ x ∈ acc ∨ (x ∈ xs ∧ P x) by
    obtain ⟨r, hr, hrs⟩ := H []
    refine ⟨r.reverse, ?_, by simpa using hrs⟩
    simp [List.filterM, hr, bind, Except.bind, pure, Except.pure]
  induction xs with
  | nil => intro acc; exact ⟨acc, rfl, by simp⟩
  | cons x xs ih =>
    intro acc
    obtain ⟨b, hb, hbs⟩ := h x (by simp)
    obtain ⟨r, hr, hrs⟩ := ih (fun y hy => h y (by simp [hy])) (cond b (x :: acc) acc)
    refine ⟨r, ?_, ?_⟩
    · simp only [List.filterAuxM, hb, bind, Except.bind]; exact hr
    · intro y
      rw [hrs]
      cases b
      · have : ¬ P x := fun h => by simpa using hbs.2 h
        simp only [cond_false, List.mem_cons]
        grind
      · have : P x := hbs.1 rfl
        simp only [cond_true, List.mem_cons]
        grind

/-! ### Opposing sides -/

theorem buildConnectionSet_spec {e f : Edge} {cs : ConnectionSet} (h : buildConnectionSet e f = .ok cs) :
    e.endNode cs.incoming = f.endNode cs.ongoing := by
  unfold buildConnectionSet at h
  repeat' split at h
  all_goals first
    | (simp only [Except.ok.injEq] at h; subst h; simpa [Edge.endNode])
    | simp at h

theorem adjacent_of_endNode {e f : Edge} {w w' : Which} (h : e.endNode w = f.endNode w') : Adjacent e f := by
  cases w <;> cases w' <;> simp [Edge.endNode, Adjacent] at * <;> simp [h]

theorem iff_not_iff {p q : Prop} : (p ↔ ¬q) ↔ ¬(p ↔ q) := by tauto

theorem iff_cancel_right {p q r : Prop} (h : (p ↔ r) ↔ (q ↔ r)) : p ↔ q := by tauto

theorem iff_cancel_left {p q r : Prop} (h : (r ↔ p) ↔ (r ↔ q)) : p ↔ q := by tauto

theorem isOnASide_iff {net : Net} (hn : net.WellFormed) {e f : Edge} {b : Nat} {le le' : LaneEnd}
    (hs : Shared net e.segment f.segment le le') (hb : net.bp le = b)
    (hag : ∀ m, Shared net e.segment f.segment m le' → (m ∈ net.aSide b ↔ le ∈ net.aSide b)) :
    isOnASide net b e = true ↔ le ∈ net.aSide b := by
  unfold isOnASide
  rw [List.any_eq_true]
  constructor
  · rintro ⟨m, hm, hseg⟩
    have hseg' : net.laneSeg m.lane = e.segment := by simpa using hseg
    have hml := hn.segLane b m hm
    rw [hseg'] at hml
    exact (hag m ⟨hml, hs.2.1, by rw [hn.side b m hm, ← hb, hs.2.2]⟩).1 hm
  · intro h
    exact ⟨le, h, by simpa using hn.laneSeg _ _ hs.1⟩

theorem fromOpposingSides_iff {net : Net} (hn : net.WellFormed) {e f : Edge} (hi : OneInterface net e f)
    (hadj : Adjacent e f) : fromOpposingSides net e f = .ok true ↔ Opposing net e.segment f.segment := by
  have hb : ∃ cs, buildConnectionSet e f = .ok cs := by
    unfold buildConnectionSet
    rcases hadj with h | h | h | h <;> (repeat' split) <;> exact ⟨_, rfl⟩
  obtain ⟨cs, hcs⟩ := hb
  have hnode := buildConnectionSet_spec hcs
  unfold fromOpposingSides
  rw [hcs]
  simp only [bind, Except.bind]
  -- the pair at the chosen branch point decides
  have key : ∀ b l l', l ∈ net.segLanes e.segment → l' ∈ net.segLanes f.segment → net.bp ⟨l, cs.incoming⟩ = b →
      net.bp ⟨l', cs.ongoing⟩ = b →
      ((isOnASide net b e != isOnASide net b f) = true ↔ Opposing net e.segment f.segment) := by
    intro b l l' hl hl' hbl hbl'
    have hsh : Shared net e.segment f.segment ⟨l, cs.incoming⟩ ⟨l', cs.ongoing⟩ := ⟨hl, hl', by rw [hbl, hbl']⟩
    have h1 : isOnASide net b e = true ↔ (⟨l, cs.incoming⟩ : LaneEnd) ∈ net.aSide b := by
      refine isOnASide_iff hn hsh hbl ?_
      intro m hm
      have := hi.agree _ _ _ _ hm hsh
      have hbm : net.bp m = b := by rw [hm.2.2, hbl']
      rw [hbm, hbl] at this
      exact iff_cancel_right this
    have h2 : isOnASide net b f = true ↔ (⟨l', cs.ongoing⟩ : LaneEnd) ∈ net.aSide b := by
      have hsh' : Shared net f.segment e.segment ⟨l', cs.ongoing⟩ ⟨l, cs.incoming⟩ := ⟨hl', hl, by rw [hbl, hbl']⟩
      refine isOnASide_iff (f := e) hn hsh' hbl' ?_
      intro m hm
      have := hi.agree _ _ _ _ ⟨hm.2.1, hm.1, hm.2.2.symm⟩ hsh
      rw [hbl] at this
      exact iff_cancel_left this
    have h3 : (isOnASide net b e != isOnASide net b f) = true ↔
        ((⟨l, cs.incoming⟩ : LaneEnd) ∈ net.aSide b ↔ (⟨l', cs.ongoing⟩ : LaneEnd) ∉ net.aSide b) := by
      rw [← h1, ← h2]
      cases isOnASide net b e <;> cases isOnASide net b f <;> simp
    rw [h3]
    constructor
    · intro h
      exact ⟨_, _, hl, hl', hsh.2.2, by rw [hbl]; exact h⟩
    · rintro ⟨m, m', hm, hm', hbm, hside⟩
      have := hi.agree m m' _ _ ⟨hm, hm', hbm⟩ hsh
      rw [hbl] at this
      rw [iff_not_iff, ← this, ← iff_not_iff]
      exact hside
  split
  · rename_i hmin
    rw [List.min?_eq_none_iff] at hmin
    constructor
    · intro h; simp [pure, Except.pure] at h
    · rintro ⟨m, m', hm, hm', hbm, -⟩
      exfalso
      have h1 := hi.shared m m' ⟨hm, hm', hbm⟩
      obtain ⟨hw, hw'⟩ := hi.single _ _ _ _ h1 hnode
      have hmem : net.bp m ∈ (connectingBranchPoints net e cs.incoming).filter
          (fun b => decide (b ∈ connectingBranchPoints net f cs.ongoing)) := by
        rw [List.mem_filter]
        refine ⟨List.mem_map.2 ⟨m.lane, hm, by rw [← hw]⟩, ?_⟩
        rw [decide_eq_true_eq, hbm]
        exact List.mem_map.2 ⟨m'.lane, hm', by rw [← hw']⟩
      rw [hmin] at hmem
      simp at hmem
  · rename_i b hmin
    have hmem : b ∈ (connectingBranchPoints net e cs.incoming).filter
        (fun b => decide (b ∈ connectingBranchPoints net f cs.ongoing)) := List.min?_mem hmin
    rw [List.mem_filter, decide_eq_true_eq] at hmem
    obtain ⟨l, hl, hbl⟩ := List.mem_map.1 hmem.1
    obtain ⟨l', hl', hbl'⟩ := List.mem_map.1 hmem.2
    rw [← key b l l' hl hl' hbl hbl']
    simp [pure, Except.pure]

/-- Consecutive edges of a walk that visits no node twice meet at one node only. -/
theorem walk_single {g : Graph} {x : Nat} {p : List Edge} {ns : List Nat} (h : Walk g x p ns) (hnd : ns.Nodup) :
    p.IsChain (fun e f => e ∈ g.edges ∧ f ∈ g.edges ∧ e ≠ f ∧ Adjacent e f ∧
      ∀ w w' v v', e.endNode w = f.endNode w' → e.endNode v = f.endNode v' → w = v ∧ w' = v') := by
  induction h with
  | nil x => exact .nil
  | @cons x y e es ns he hj hw ih =>
    have hadj := walk_adjacent (.cons he hj hw)
    cases hw with
    | nil => exact .singleton _
    | @cons _ z f rest ns' hf hj' hw' =>
      obtain ⟨t, rfl⟩ := walk_head hw'
      refine .cons_cons ⟨he, hf, ?_, (List.isChain_cons_cons.1 hadj).1, ?_⟩ (ih (List.nodup_cons.1 hnd).2)
      · rintro rfl
        simp only [List.nodup_cons, List.mem_cons, not_or] at hnd
        rcases hj with ⟨h1, h2⟩ | ⟨h1, h2⟩ <;> rcases hj' with ⟨h3, h4⟩ | ⟨h3, h4⟩ <;> omega
      · simp only [List.nodup_cons, List.mem_cons, not_or] at hnd
        intro w w' v v' h1 h2
        rcases hj with ⟨h3, h4⟩ | ⟨h3, h4⟩ <;> rcases hj' with ⟨h5, h6⟩ | ⟨h5, h6⟩ <;>
          cases w <;> cases w' <;> cases v <;> cases v' <;> simp [Edge.endNode] at h1 h2 ⊢ <;> omega

theorem isChain_congr {α : Type} {R P Q : α → α → Prop} (h : ∀ a b, R a b → (P a b ↔ Q a b)) (l : List α)
    (hR : l.IsChain R) : l.IsChain P ↔ l.IsChain Q := by
  induction l with
  | nil => simp
  | cons a l ih =>
    cases l with
    | nil => simp
    | cons b l =>
      rw [List.isChain_cons_cons] at hR ⊢
      rw [List.isChain_cons_cons, h a b hR.1, ih hR.2]

/-! ### BuildGraph -/

theorem mem_assignNode (ns : List Node) (n x : Node) :
    x ∈ assignNode ns n ↔ x = n ∨ (x ∈ ns ∧ x.id ≠ n.id) := by
  unfold assignNode
  split
  · rename_i h
    obtain ⟨y, hy, hid⟩ := List.any_eq_true.1 h
    have hid' : y.id = n.id := by simpa using hid
    rw [List.mem_map]
    constructor
    · rintro ⟨z, hz, rfl⟩
      split
      · exact .inl rfl
      · rename_i hne; exact .inr ⟨hz, hne⟩
    · rintro (rfl | ⟨hx, hne⟩)
      · exact ⟨y, hy, by rw [if_pos hid']⟩
      · exact ⟨x, hx, by rw [if_neg hne]⟩
  · rename_i h
    have h' : ∀ y ∈ ns, y.id ≠ n.id := by simpa using h
    rw [List.mem_append, List.mem_singleton]
    constructor
    · rintro (hx | rfl)
      · exact .inr ⟨hx, h' x hx⟩
      · exact .inl rfl
    · rintro (rfl | ⟨hx, -⟩)
      · exact .inr rfl
      · exact .inl hx

theorem assignNode_ids (ns : List Node) (n : Node) (h : (ns.map Node.id).Nodup) :
    ((assignNode ns n).map Node.id).Nodup := by
  unfold assignNode
  split
  · rw [List.map_map]
    have : (Node.id ∘ fun x => if x.id = n.id then n else x) = Node.id := by
      funext x
      simp only [Function.comp]
      split
      · rename_i h; exact h.symm
      · rfl
    rw [this]; exact h
  · rename_i hn
    rw [List.map_append, List.nodup_append]
    refine ⟨h, by simp, ?_⟩
    intro a ha b hb hab
    obtain ⟨x, hx, rfl⟩ := List.mem_map.1 ha
    simp at hb hn
    exact hn x hx (by rw [hab, hb])

theorem assignEdge_new {es : List Edge} {e : Edge} (h : ∀ x ∈ es, x.id ≠ e.id) : assignEdge es e = es ++ [e] := by
  unfold assignEdge
  rw [if_neg]
  simpa using h

theorem mem_setInsert {α : Type} [DecidableEq α] (xs : List α) (x y : α) : y ∈ setInsert xs x ↔ y ∈ xs ∨ y = x := by
  unfold setInsert
  split
  · rename_i h
    exact ⟨.inl, fun h' => h'.elim id (fun h' => h' ▸ h)⟩
  · simp

theorem mem_foldl_setInsert {α β : Type} [DecidableEq β] (f : α → β) (xs : List α) (acc : List β) (y : β) :
    y ∈ xs.foldl (fun acc l => setInsert acc (f l)) acc ↔ y ∈ acc ∨ ∃ l ∈ xs, f l = y := by
  induction xs generalizing acc with
  | nil => simp
  | cons x xs ih =>
    rw [List.foldl_cons, ih, mem_setInsert]
    simp only [List.mem_cons, exists_eq_or_imp]
    grind

theorem getBranchPoints_mem {net : Net} {s : Nat} {w : Which} {bps : List Nat}
    (h : getBranchPoints net s w = .ok bps) (b : Nat) : b ∈ bps ↔ ∃ l ∈ net.segLanes s, net.bp ⟨l, w⟩ = b := by
  unfold getBranchPoints at h
  dsimp only at h
  rcases hc : throwUnless (decide ((List.foldl (fun acc l => setInsert acc (net.bp ⟨l, w⟩)) [] (net.segLanes s)).length
    = (net.segLanes s).length)) with _ | u
  · rw [hc] at h; simp [bind, Except.bind] at h
  · rw [hc] at h
    simp only [bind, Except.bind, pure, Except.pure, Except.ok.injEq] at h
    subst h
    rw [mem_foldl_setInsert]
    simp

/-- What `GetNode` returns. -/
structure GotNode (g : Graph) (bps : List Nat) (c : Nat) (n : Node) (c' : Nat) : Prop where
  le : c ≤ c'
  lt : n.id < c'
  old : n ∈ g.nodes ∨ (n.id = c ∧ c' = c + 1 ∧ n.branchPoints = bps ∧ n.edges = [] ∧
    ∀ m ∈ g.nodes, ∀ b ∈ bps, b ∉ m.branchPoints)
  same : n ∈ g.nodes → c' = c ∧ ∃ b ∈ bps, b ∈ n.branchPoints

theorem getNode_spec {g : Graph} {bps : List Nat} {c : Nat} (hlt : ∀ n ∈ g.nodes, n.id < c) :
    GotNode g bps c (getNode g bps c).1 (getNode g bps c).2 := by
  unfold getNode
  generalize h : findNodeByBranchPoints g bps = o
  unfold findNodeByBranchPoints at h
  rcases o with _ | n <;> simp only
  · rw [List.find?_eq_none] at h
    refine ⟨Nat.le_succ _, Nat.lt_succ_self _, .inr ⟨rfl, rfl, rfl, rfl, ?_⟩, ?_⟩
    · intro m hm b hb hbm
      exact h m hm (List.any_eq_true.2 ⟨b, hb, by simpa using hbm⟩)
    · intro hmem
      exact absurd (hlt _ hmem) (Nat.lt_irrefl _)
  · have hm := List.mem_of_find?_eq_some h
    refine ⟨Nat.le_refl _, hlt _ hm, .inl hm, fun _ => ⟨rfl, ?_⟩⟩
    have := List.find?_some h
    obtain ⟨b, hb, hbn⟩ := List.any_eq_true.1 this
    exact ⟨b, hb, by simpa using hbn⟩

/-- Invariant of the loop of `BuildGraph`; `done` are the segments so far. -/
structure BuildInv (net : Net) (done : List Nat) (g : Graph) (c : Nat) : Prop where
  wf : g.WellFormed
  lt : ∀ n ∈ g.nodes, n.id < c
  segments : g.edges.map Edge.segment = done
  ids : ∀ e ∈ g.edges, e.id = net.segId e.segment

theorem gotNode_incident {g : Graph} {bps : List Nat} {c c' : Nat} {n : Node} (hg : g.WellFormed)
    (hlt : ∀ n ∈ g.nodes, n.id < c) (hn : GotNode g bps c n c') (id : String) :
    id ∈ n.edges ↔ ∃ e ∈ g.edges, e.id = id ∧ (e.nodeA = n.id ∨ e.nodeB = n.id) := by
  rcases hn.old with h | ⟨hid, -, -, he, -⟩
  · exact hg.incident n h id
  · rw [he]
    constructor
    · simp
    · rintro ⟨e, hm, -, hor⟩
      exfalso
      obtain ⟨⟨na, hna, hna'⟩, ⟨nb, hnb, hnb'⟩⟩ := hg.ends e hm
      have h1 := hlt na hna
      have h2 := hlt nb hnb
      rcases hor with h | h <;> omega

/-- The nodes after one segment, in terms of the nodes before. -/
structure Added (net : Net) (g : Graph) (c : Nat) (s : Nat) (g' : Graph) (c' : Nat) where
  startBps : List Nat
  endBps : List Nat
  a : Node
  b : Node
  c1 : Nat
  hs : getBranchPoints net s .start = .ok startBps
  he : getBranchPoints net s .finish = .ok endBps
  ha : GotNode g startBps c a c1
  hb : GotNode g endBps c1 b c'
  edges : g'.edges = assignEdge g.edges ⟨net.segId s, s, a.id, b.id⟩
  nodes : g'.nodes = assignNode (assignNode g.nodes { a with edges := setInsert a.edges (net.segId s) })
    { b with edges := setInsert b.edges (net.segId s) }

theorem addSegment_added {net : Net} {g : Graph} {c : Nat} {s : Nat} {g' : Graph} {c' : Nat}
    (hlt : ∀ n ∈ g.nodes, n.id < c) (h : addSegment net (g, c) s = .ok (g', c')) :
    Nonempty (Added net g c s g' c') := by
  unfold addSegment at h
  rcases hs : getBranchPoints net s .start with _ | startBps
  · rw [hs] at h; simp [bind, Except.bind] at h
  rcases he : getBranchPoints net s .finish with _ | endBps
  · rw [hs, he] at h; simp [bind, Except.bind] at h
  rw [hs, he] at h
  simp only [bind, Except.bind, pure, Except.pure, Except.ok.injEq, Prod.mk.injEq] at h
  obtain ⟨rfl, rfl⟩ := h
  have ha := getNode_spec (g := g) (bps := startBps) (c := c) hlt
  have hb := getNode_spec (g := g) (bps := endBps) (c := (getNode g startBps c).2)
    (fun n hn => Nat.lt_of_lt_of_le (hlt n hn) ha.le)
  exact ⟨⟨startBps, endBps, _, _, _, hs, he, ha, hb, rfl, rfl⟩⟩

theorem mem_added {net : Net} {g : Graph} {c s c' : Nat} {g' : Graph} (A : Added net g c s g' c') (x : Node) :
    x ∈ g'.nodes ↔ x = { A.b with edges := setInsert A.b.edges (net.segId s) } ∨
      (x = { A.a with edges := setInsert A.a.edges (net.segId s) } ∧ A.a.id ≠ A.b.id) ∨
      (x ∈ g.nodes ∧ x.id ≠ A.a.id ∧ x.id ≠ A.b.id) := by
  rw [A.nodes, mem_assignNode, mem_assignNode]
  constructor
  · rintro (h | ⟨h | ⟨h, h'⟩, hne⟩)
    · exact .inl h
    · exact .inr (.inl ⟨h, by rw [h] at hne; exact hne⟩)
    · exact .inr (.inr ⟨h, h', hne⟩)
  · rintro (h | ⟨h, hne⟩ | ⟨h, h', hne⟩)
    · exact .inl h
    · exact .inr ⟨.inl h, by rw [h]; exact hne⟩
    · exact .inr ⟨.inr ⟨h, h'⟩, hne⟩

theorem gotNode_unique {g : Graph} {n x : Node} {bps : List Nat} {c c' : Nat} (hg : g.WellFormed)
    (hlt : ∀ n ∈ g.nodes, n.id < c) (hn : GotNode g bps c n c') (hx : x ∈ g.nodes) (h : x.id = n.id) : x = n := by
  rcases hn.old with h' | ⟨hid, -⟩
  · exact nodup_map_inj hg.nodeIds hx h' h
  · have := hlt x hx; omega

theorem added_ids_eq {net : Net} {g : Graph} {c s c' : Nat} {g' : Graph} (hg : g.WellFormed)
    (hlt : ∀ n ∈ g.nodes, n.id < c) (A : Added net g c s g' c') (h : A.a.id = A.b.id) : A.a = A.b := by
  rcases A.hb.old with hb | ⟨hid, -⟩
  · exact (gotNode_unique hg hlt A.ha hb h.symm).symm
  · have := A.ha.lt; omega

theorem addSegment_inv {net : Net} (hn : net.WellFormed) {done : List Nat} {s : Nat} (hdone : ∀ t ∈ done, t ∈ net.segments)
    (hs : s ∈ net.segments) (hnew : s ∉ done) {g g' : Graph} {c c' : Nat} (hi : BuildInv net done g c)
    (A : Added net g c s g' c') : BuildInv net (done ++ [s]) g' c' := by
  have hseg : ∀ e ∈ g.edges, e.segment ∈ done := fun e he => by
    rw [← hi.segments]; exact List.mem_map.2 ⟨e, he, rfl⟩
  have hidnew : ∀ e ∈ g.edges, e.id ≠ net.segId s := by
    intro e he h
    rw [hi.ids e he] at h
    have := hn.segIds _ (hdone _ (hseg e he)) _ hs h
    exact hnew (this ▸ hseg e he)
  have hedges : g'.edges = g.edges ++ [⟨net.segId s, s, A.a.id, A.b.id⟩] := by
    rw [A.edges, assignEdge_new]; exact hidnew
  have hmem := mem_added A
  have hAa : ∃ n ∈ g'.nodes, n.id = A.a.id := by
    by_cases h : A.a.id = A.b.id
    · exact ⟨_, (hmem _).2 (.inl rfl), h.symm⟩
    · exact ⟨_, (hmem _).2 (.inr (.inl ⟨rfl, h⟩)), rfl⟩
  have hAb : ∃ n ∈ g'.nodes, n.id = A.b.id := ⟨_, (hmem _).2 (.inl rfl), rfl⟩
  have hkeep : ∀ n ∈ g.nodes, ∃ m ∈ g'.nodes, m.id = n.id := by
    intro n hn'
    by_cases h1 : n.id = A.a.id
    · rw [h1]; exact hAa
    by_cases h2 : n.id = A.b.id
    · rw [h2]; exact hAb
    · exact ⟨n, (hmem n).2 (.inr (.inr ⟨hn', h1, h2⟩)), rfl⟩
  have hltb : ∀ n ∈ g.nodes, n.id < A.c1 := fun n h => Nat.lt_of_lt_of_le (hi.lt n h) A.ha.le
  have hia := gotNode_incident hi.wf hi.lt A.ha
  have hib := gotNode_incident hi.wf hltb A.hb
  refine ⟨⟨?_, ?_, ?_, ?_⟩, ?_, ?_, ?_⟩
  · rw [hedges, List.map_append, List.nodup_append]
    refine ⟨hi.wf.edgeIds, by simp, ?_⟩
    intro x hx y hy hxy
    obtain ⟨e, he, rfl⟩ := List.mem_map.1 hx
    simp at hy
    exact hidnew e he (by rw [hxy, hy])
  · rw [A.nodes]
    exact assignNode_ids _ _ (assignNode_ids _ _ hi.wf.nodeIds)
  · intro e he
    rw [hedges, List.mem_append, List.mem_singleton] at he
    rcases he with he | rfl
    · obtain ⟨⟨na, hna, hna'⟩, ⟨nb, hnb, hnb'⟩⟩ := hi.wf.ends e he
      obtain ⟨ma, hma, hma'⟩ := hkeep na hna
      obtain ⟨mb, hmb, hmb'⟩ := hkeep nb hnb
      exact ⟨⟨ma, hma, by rw [hma', hna']⟩, ⟨mb, hmb, by rw [hmb', hnb']⟩⟩
    · exact ⟨hAa, hAb⟩
  · intro n hn' id
    rw [hedges]
    rw [hmem] at hn'
    rcases hn' with rfl | ⟨rfl, hne⟩ | ⟨hn', h1, h2⟩
    · simp only [mem_setInsert, hib, List.mem_append, List.mem_singleton]
      constructor
      · rintro (⟨e, he, h1, h2⟩ | rfl)
        · exact ⟨e, .inl he, h1, h2⟩
        · exact ⟨_, .inr rfl, rfl, .inr rfl⟩
      · rintro ⟨e, he | rfl, h1, h2⟩
        · exact .inl ⟨e, he, h1, h2⟩
        · exact .inr h1.symm
    · simp only [mem_setInsert, hia, List.mem_append, List.mem_singleton]
      constructor
      · rintro (⟨e, he, h1, h2⟩ | rfl)
        · exact ⟨e, .inl he, h1, h2⟩
        · exact ⟨_, .inr rfl, rfl, .inl rfl⟩
      · rintro ⟨e, he | rfl, h1, h2⟩
        · exact .inl ⟨e, he, h1, h2⟩
        · exact .inr h1.symm
    · rw [hi.wf.incident n hn']
      simp only [List.mem_append, List.mem_singleton]
      constructor
      · rintro ⟨e, he, h1, h2⟩
        exact ⟨e, .inl he, h1, h2⟩
      · rintro ⟨e, he | rfl, h1', h2'⟩
        · exact ⟨e, he, h1', h2'⟩
        · exfalso
          rcases h2' with h | h
          · exact h1 h.symm
          · exact h2 h.symm
  · intro n hn'
    rw [hmem] at hn'
    rcases hn' with rfl | ⟨rfl, -⟩ | ⟨hn', -, -⟩
    · exact A.hb.lt
    · exact Nat.lt_of_lt_of_le A.ha.lt A.hb.le
    · exact Nat.lt_of_lt_of_le (hltb n hn') A.hb.le
  · rw [hedges, List.map_append, hi.segments]; rfl
  · intro e he
    rw [hedges, List.mem_append, List.mem_singleton] at he
    rcases he with he | rfl
    · exact hi.ids e he
    · rfl

/-- With uniform interfaces the nodes are exactly the interfaces. -/
structure UniInv (net : Net) (g : Graph) : Prop where
  start : ∀ e ∈ g.edges, ∀ l ∈ net.segLanes e.segment, ∃ n ∈ g.nodes, n.id = e.nodeA ∧ net.bp ⟨l, .start⟩ ∈ n.branchPoints
  finish : ∀ e ∈ g.edges, ∀ l ∈ net.segLanes e.segment, ∃ n ∈ g.nodes, n.id = e.nodeB ∧ net.bp ⟨l, .finish⟩ ∈ n.branchPoints
  iface : ∀ n ∈ g.nodes, ∃ s ∈ net.segments, ∃ w, ∀ b, b ∈ n.branchPoints ↔ ∃ l ∈ net.segLanes s, net.bp ⟨l, w⟩ = b
  disjoint : ∀ n ∈ g.nodes, ∀ m ∈ g.nodes, ∀ b ∈ n.branchPoints, b ∈ m.branchPoints → n.id = m.id

theorem uni_iface {net : Net} (hu : UniformInterfaces net) {s t : Nat} (hs : s ∈ net.segments) (ht : t ∈ net.segments)
    {w v : Which} {b : Nat} (h1 : ∃ l ∈ net.segLanes s, net.bp ⟨l, w⟩ = b) (h2 : ∃ l ∈ net.segLanes t, net.bp ⟨l, v⟩ = b)
    (b' : Nat) : (∃ l ∈ net.segLanes s, net.bp ⟨l, w⟩ = b') ↔ (∃ l ∈ net.segLanes t, net.bp ⟨l, v⟩ = b') := by
  obtain ⟨l, hl, rfl⟩ := h1
  obtain ⟨m, hm, hb⟩ := h2
  constructor
  · rintro ⟨l', hl', rfl⟩
    obtain ⟨m', hm', h⟩ := hu.same s hs t ht w v l hl m hm hb.symm l' hl'
    exact ⟨m', hm', h.symm⟩
  · rintro ⟨m', hm', rfl⟩
    obtain ⟨l', hl', h⟩ := hu.same t ht s hs v w m hm l hl hb m' hm'
    exact ⟨l', hl', h.symm⟩

/-- The branch points of the node that `GetNode` returns are those of the interface. -/
theorem gotNode_bps {net : Net} (hu : UniformInterfaces net) {g : Graph} (hi : UniInv net g) {s : Nat} {w : Which}
    (hs : s ∈ net.segments) {bps : List Nat} (hbps : getBranchPoints net s w = .ok bps) {c c' : Nat} {n : Node}
    (hn : GotNode g bps c n c') (b : Nat) : b ∈ n.branchPoints ↔ ∃ l ∈ net.segLanes s, net.bp ⟨l, w⟩ = b := by
  rcases hn.old with h | ⟨-, -, h, -, -⟩
  · obtain ⟨-, b0, hb0, hb0'⟩ := hn.same h
    obtain ⟨t, ht, v, htv⟩ := hi.iface n h
    rw [htv]
    exact uni_iface hu ht hs ((htv b0).1 hb0') ((getBranchPoints_mem hbps b0).1 hb0) b
  · rw [h]; exact getBranchPoints_mem hbps b

theorem addSegment_uni {net : Net} (hn : net.WellFormed) (hu : UniformInterfaces net) {done : List Nat} {s : Nat}
    (hdone : ∀ t ∈ done, t ∈ net.segments)
    (hs : s ∈ net.segments) (hnew : s ∉ done) {g g' : Graph} {c c' : Nat} (hi : BuildInv net done g c)
    (hv : UniInv net g) (A : Added net g c s g' c') : UniInv net g' := by
  have hseg : ∀ e ∈ g.edges, e.segment ∈ done := fun e he => by
    rw [← hi.segments]; exact List.mem_map.2 ⟨e, he, rfl⟩
  have hidnew : ∀ e ∈ g.edges, e.id ≠ net.segId s := by
    intro e he h
    rw [hi.ids e he] at h
    have := hn.segIds _ (hdone _ (hseg e he)) _ hs h
    exact hnew (this ▸ hseg e he)
  have hedges : g'.edges = g.edges ++ [⟨net.segId s, s, A.a.id, A.b.id⟩] := by
    rw [A.edges, assignEdge_new]; exact hidnew
  have hmem := mem_added A
  have hab := gotNode_bps hu hv hs A.hs A.ha
  have hbb := gotNode_bps hu hv hs A.he A.hb
  have hltb : ∀ n ∈ g.nodes, n.id < A.c1 := fun n h => Nat.lt_of_lt_of_le (hi.lt n h) A.ha.le
  have heq := added_ids_eq hi.wf hi.lt A
  -- every node of `g'` has the branch points of `a`, `b` or an old node with the same id
  have hlike : ∀ n ∈ g'.nodes, (n.id = A.a.id ∧ n.branchPoints = A.a.branchPoints) ∨
      (n.id = A.b.id ∧ n.branchPoints = A.b.branchPoints) ∨ (n ∈ g.nodes ∧ n.id ≠ A.a.id ∧ n.id ≠ A.b.id) := by
    intro n h
    rcases (hmem n).1 h with rfl | ⟨rfl, -⟩ | h
    · exact .inr (.inl ⟨rfl, rfl⟩)
    · exact .inl ⟨rfl, rfl⟩
    · exact .inr (.inr h)
  have hAa : ∃ n ∈ g'.nodes, n.id = A.a.id ∧ n.branchPoints = A.a.branchPoints := by
    by_cases h : A.a.id = A.b.id
    · refine ⟨_, (hmem _).2 (.inl rfl), h.symm, ?_⟩
      simp [heq h]
    · exact ⟨_, (hmem _).2 (.inr (.inl ⟨rfl, h⟩)), rfl, rfl⟩
  have hAb : ∃ n ∈ g'.nodes, n.id = A.b.id ∧ n.branchPoints = A.b.branchPoints :=
    ⟨_, (hmem _).2 (.inl rfl), rfl, rfl⟩
  have hkeep : ∀ n ∈ g.nodes, ∃ m ∈ g'.nodes, m.id = n.id ∧ m.branchPoints = n.branchPoints := by
    intro n hn'
    by_cases h1 : n.id = A.a.id
    · rw [gotNode_unique hi.wf hi.lt A.ha hn' h1]; exact hAa
    by_cases h2 : n.id = A.b.id
    · rw [gotNode_unique hi.wf hltb A.hb hn' h2]; exact hAb
    · exact ⟨n, (hmem n).2 (.inr (.inr ⟨hn', h1, h2⟩)), rfl, rfl⟩
  have hda : ∀ n ∈ g.nodes, ∀ b ∈ n.branchPoints, b ∈ A.a.branchPoints → n.id = A.a.id := by
    intro n hn' b hb hba
    rcases A.ha.old with h | ⟨-, -, hbps, -, hno⟩
    · exact hv.disjoint n hn' _ h b hb hba
    · rw [hbps] at hba
      exact absurd hb (hno n hn' b hba)
  have hdb : ∀ n ∈ g.nodes, ∀ b ∈ n.branchPoints, b ∈ A.b.branchPoints → n.id = A.b.id := by
    intro n hn' b hb hba
    rcases A.hb.old with h | ⟨-, -, hbps, -, hno⟩
    · exact hv.disjoint n hn' _ h b hb hba
    · rw [hbps] at hba
      exact absurd hb (hno n hn' b hba)
  have hdab : ∀ b ∈ A.a.branchPoints, b ∉ A.b.branchPoints := by
    intro b h1 h2
    obtain ⟨l, hl, h1⟩ := (hab b).1 h1
    obtain ⟨m, hm, h2⟩ := (hbb b).1 h2
    exact hu.ends s hs l hl m hm (by rw [h1, h2])
  refine ⟨?_, ?_, ?_, ?_⟩
  · intro e he l hl
    rw [hedges, List.mem_append, List.mem_singleton] at he
    rcases he with he | rfl
    · obtain ⟨n, hn', hid, hb⟩ := hv.start e he l hl
      obtain ⟨m, hm, h1, h2⟩ := hkeep n hn'
      exact ⟨m, hm, by rw [h1, hid], by rw [h2]; exact hb⟩
    · obtain ⟨m, hm, h1, h2⟩ := hAa
      exact ⟨m, hm, h1, by rw [h2]; exact (hab _).2 ⟨l, hl, rfl⟩⟩
  · intro e he l hl
    rw [hedges, List.mem_append, List.mem_singleton] at he
    rcases he with he | rfl
    · obtain ⟨n, hn', hid, hb⟩ := hv.finish e he l hl
      obtain ⟨m, hm, h1, h2⟩ := hkeep n hn'
      exact ⟨m, hm, by rw [h1, hid], by rw [h2]; exact hb⟩
    · obtain ⟨m, hm, h1, h2⟩ := hAb
      exact ⟨m, hm, h1, by rw [h2]; exact (hbb _).2 ⟨l, hl, rfl⟩⟩
  · intro n hn'
    rcases hlike n hn' with ⟨-, h⟩ | ⟨-, h⟩ | ⟨h, -, -⟩
    · exact ⟨s, hs, .start, fun b => by rw [h]; exact hab b⟩
    · exact ⟨s, hs, .finish, fun b => by rw [h]; exact hbb b⟩
    · exact hv.iface n h
  · intro n hn' m hm b hb hb'
    rcases hlike n hn' with ⟨i1, h1⟩ | ⟨i1, h1⟩ | ⟨h1, j1, k1⟩ <;>
      rcases hlike m hm with ⟨i2, h2⟩ | ⟨i2, h2⟩ | ⟨h2, j2, k2⟩
    · rw [i1, i2]
    · rw [h1] at hb; rw [h2] at hb'; exact absurd hb' (hdab b hb)
    · rw [h1] at hb; rw [i1]; exact (hda m h2 b hb' hb).symm
    · rw [h1] at hb; rw [h2] at hb'; exact absurd hb (hdab b hb')
    · rw [i1, i2]
    · rw [h1] at hb; rw [i1]; exact (hdb m h2 b hb' hb).symm
    · rw [h2] at hb'; rw [i2]; exact hda n h1 b hb hb'
    · rw [h2] at hb'; rw [i2]; exact hdb n h1 b hb hb'
    · exact hv.disjoint n h1 m h2 b hb hb'

theorem foldlM_build {net : Net} (hn : net.WellFormed) (xs : List Nat) :
    ∀ (done : List Nat) (g : Graph) (c : Nat) (g' : Graph) (c' : Nat), (done ++ xs).Nodup →
      (∀ t ∈ done ++ xs, t ∈ net.segments) → BuildInv net done g c →
      xs.foldlM (addSegment net) (g, c) = .ok (g', c') →
      BuildInv net (done ++ xs) g' c' ∧ (UniformInterfaces net → UniInv net g → UniInv net g') := by
  induction xs with
  | nil =>
    intro done g c g' c' _ _ hi h
    simp only [List.foldlM_nil, pure, Except.pure, Except.ok.injEq, Prod.mk.injEq] at h
    obtain ⟨rfl, rfl⟩ := h
    exact ⟨by simpa using hi, fun _ h => h⟩
  | cons s xs ih =>
    intro done g c g' c' hnd hsub hi h
    rw [List.foldlM_cons] at h
    rcases hs : addSegment net (g, c) s with _ | ⟨g1, c1⟩
    · rw [hs] at h; simp [bind, Except.bind] at h
    rw [hs] at h
    simp only [bind, Except.bind] at h
    obtain ⟨A⟩ := addSegment_added hi.lt hs
    have hnew : s ∉ done := by
      intro h'
      rw [List.nodup_append] at hnd
      exact hnd.2.2 s h' s (by simp) rfl
    have hi1 := addSegment_inv hn (fun t ht => hsub t (by simp [ht])) (hsub s (by simp)) hnew hi A
    obtain ⟨h1, h2⟩ := ih (done ++ [s]) g1 c1 g' c' (by simpa using hnd) (by simpa using hsub) hi1 h
    refine ⟨by simpa using h1, fun hu hv => h2 hu ?_⟩
    exact addSegment_uni hn hu (fun t ht => hsub t (by simp [ht])) (hsub s (by simp)) hnew hi hv A

theorem buildGraph_inv {net : Net} (hn : net.WellFormed) {g : Graph} (h : buildGraph net = .ok g) :
    ∃ c, BuildInv net net.segments g c ∧ (UniformInterfaces net → UniInv net g) := by
  unfold buildGraph at h
  rcases hf : net.segments.foldlM (addSegment net) (⟨[], []⟩, 0) with _ | ⟨g', c'⟩
  · rw [hf] at h; simp [bind, Except.bind] at h
  rw [hf] at h
  simp only [bind, Except.bind, pure, Except.pure, Except.ok.injEq] at h
  subst h
  obtain ⟨h1, h2⟩ := foldlM_build hn net.segments [] ⟨[], []⟩ 0 g' c' (by simpa using hn.segmentsNodup)
    (by simp) ⟨⟨by simp, by simp, by simp, by simp⟩, by simp, rfl, by simp⟩ hf
  exact ⟨c', by simpa using h1, fun hu => h2 hu ⟨by simp, by simp, by simp, by simp⟩⟩

end Maliput.RouteGraph
