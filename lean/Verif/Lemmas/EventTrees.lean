import Verif.Lemmas.EventCollections

set_option autoImplicit false

/-! Lemmas about adding collections of events to each other, and about the collections of diagrams. -/
namespace Maliput.EventColl
open Maliput Spec

variable {E S D : Type}

theorem Spec.Has.set_self {p : Plains E} {i : Nat} {x y : Plain E} (h : Has p i x) : Has (p.set i (some y)) i y := by
  rw [Has] at h ⊢
  exact List.getElem?_set_self (List.getElem?_eq_some_iff.1 h).1

theorem Spec.Has.set_ne {p : Plains E} {i j : Nat} {x : Plain E} {o : Option (Plain E)} (h : Has p i x) (hj : j ≠ i) : Has (p.set j o) i x := by
  rw [Has] at h ⊢
  rw [List.getElem?_set_ne hj, h]

theorem eventsOf_has {p : Plains E} {i : Nat} {x : Plain E} (h : Has p i x) : eventsOf p i = x.events := by
  rw [Has] at h
  simp [eventsOf, h]

/-! ### Pointers -/

theorem Holds.events_length {m : Mem E} {c : Coll} {x : Plain E} (h : Holds m c x) : c.events.length = x.events.length := by
  obtain ⟨b, -, -, -, -, he⟩ := h.ex
  simp [he]

theorem Holds.deref {m : Mem E} {c : Coll} {x : Plain E} (h : Holds m c x) {k : Nat} {e : E} (hk : x.events[k]? = some e) (addr : Nat) :
    deref m ⟨c.storage, addr, k⟩ = .ok e := by
  obtain ⟨b, hb, hl, hi, -, he⟩ := h.ex
  simp [EventColl.deref, blockAt_ok hb hl, bind, Except.bind, hi, hk]

theorem Holds.pointer {m : Mem E} {c : Coll} {x : Plain E} (h : Holds m c x) {k : Nat} {q : Ptr} (hk : c.events[k]? = some q) :
    q.block = c.storage ∧ q.idx = k ∧ ∃ e, x.events[k]? = some e := by
  have hlt := (List.getElem?_eq_some_iff.1 hk).1
  rw [h.events_length] at hlt
  obtain ⟨b, -, -, -, -, he⟩ := h.ex
  rw [he, List.getElem?_map, List.getElem?_range hlt] at hk
  simp only [Option.map_some, Option.some.injEq] at hk
  subst hk
  exact ⟨rfl, rfl, _, List.getElem?_eq_getElem hlt⟩

theorem addAll_refines (A : Allocator E) {i j : Nat} (hij : i ≠ j) {c : Coll} {y : Plain E} : ∀ (l pre : List Ptr) {w : World E}
    {p : Plains E} {x : Plain E}, Refines w p → Has p i x → Has p j y → w.colls[j]? = some (some c) → c.events = pre ++ l →
    ∃ w', addAll A i w l = .ok w' ∧ Refines w' (p.set i (some { x with events := x.events ++ y.events.drop pre.length })) ∧
      (x.events.length + l.length ≤ x.room → Stays w w' i) ∧ ∀ k : Nat, k ≠ i → w'.colls[k]? = w.colls[k]? := by
  intro l
  induction l with
  | nil =>
    intro pre w p x h hx hy hc he
    refine ⟨w, rfl, ?_, fun _ => Stays.refl, fun _ _ => rfl⟩
    obtain ⟨z, hz, hh⟩ := h.has hc
    obtain rfl := hz.unique hy
    have := hh.events_length
    rw [he, List.append_nil] at this
    have hset : p.set i (some { x with events := x.events ++ z.events.drop pre.length }) = p := by
      rw [this, List.drop_length, List.append_nil]
      apply List.ext_getElem?
      intro k
      by_cases hk : i = k
      · subst hk
        rw [List.getElem?_set_self (List.getElem?_eq_some_iff.1 hx).1]
        exact hx.symm
      · rw [List.getElem?_set_ne hk]
    rw [hset]
    exact h
  | cons q l ih =>
    intro pre w p x h hx hy hc he
    obtain ⟨z, hz, hh⟩ := h.has hc
    obtain rfl := hz.unique hy
    have hq : c.events[pre.length]? = some q := by rw [he]; simp
    obtain ⟨h1, h2, e, h3⟩ := hh.pointer hq
    have hd : deref w.mem q = .ok e := by
      have := hh.deref h3 q.addr
      rw [← h1, ← h2] at this
      exact this
    obtain ⟨w1, h4, h5, h6, h7⟩ := addEvent_refines A h hx e
    have hc1 : w1.colls[j]? = some (some c) := by rw [h7 j (Ne.symm hij), hc]
    obtain ⟨w2, h8, h9, h10, h11⟩ := ih (pre ++ [q]) h5 hx.set_self (hy.set_ne hij) hc1 (by rw [he]; simp)
    refine ⟨w2, ?_, ?_, ?_, fun k hk => (h11 k hk).trans (h7 k hk)⟩
    · simp only [addAll, hd, bind, Except.bind, h4, h8]
    · rw [List.set_set] at h9
      have hdrop : z.events.drop pre.length = e :: z.events.drop (pre.length + 1) := by
        obtain ⟨hlt, he'⟩ := List.getElem?_eq_some_iff.1 h3
        rw [List.drop_eq_getElem_cons hlt, he']
      rw [hdrop]
      simpa using h9
    · intro hr
      simp only [List.length_cons] at hr
      refine (h6 (by omega)).trans (h10 ?_)
      simp only [List.length_append, List.length_cons, List.length_nil]
      omega

theorem leafAddToEnd_refines (A : Allocator E) {w : World E} {p : Plains E} (h : Refines w p) {i j : Nat} (hij : i ≠ j) {x y : Plain E}
    (hx : Has p i x) (hy : Has p j y) : ∃ w', leafAddToEnd A w i j = .ok w' ∧
      Refines w' (p.set i (some { x with events := x.events ++ y.events })) ∧
      (x.events.length + y.events.length ≤ x.room → Stays w w' i) ∧ ∀ k : Nat, k ≠ i → w'.colls[k]? = w.colls[k]? := by
  obtain ⟨c, hc, -⟩ := h.holds i x hx
  obtain ⟨d, hd, hh⟩ := h.holds j y hy
  obtain ⟨w', h1, h2, h3, h4⟩ := addAll_refines A hij d.events [] h hx hy hd rfl
  refine ⟨w', ?_, by simpa using h2, by rw [← hh.events_length]; exact h3, h4⟩
  simp only [leafAddToEnd, coll_ok hc, coll_ok hd, bind, Except.bind]
  rw [if_neg (fun h => hij h.1), h1]

/-! ### Many collections -/

theorem clears_refines : ∀ (l : List Nat) {w : World E} {p : Plains E}, Refines w p → (∀ i ∈ l, ∃ x, Has p i x) →
    ∃ w', l.foldlM (fun w i => leafClear w i) w = .ok w' ∧ Refines w' (emptied p l) ∧ ∀ k : Nat, k ∉ l → w'.colls[k]? = w.colls[k]? := by
  intro l
  induction l with
  | nil => intro w p h _; exact ⟨w, rfl, h, fun _ _ => rfl⟩
  | cons i l ih =>
    intro w p h hl
    obtain ⟨x, hx⟩ := hl i (by simp)
    obtain ⟨w1, h1, h2, h3⟩ := clear_refines h hx
    obtain ⟨w2, h4, h5, h6⟩ := ih h2 (by
      intro j hj
      obtain ⟨y, hy⟩ := hl j (by simp [hj])
      by_cases hij : i = j
      · subst hij; exact ⟨_, hx.set_self⟩
      · exact ⟨y, hy.set_ne hij⟩)
    refine ⟨w2, ?_, ?_, ?_⟩
    · rw [List.foldlM_cons, h1]; exact h4
    · rw [emptied, List.foldl_cons, change_set hx]; exact h5
    · intro k hk
      simp only [List.mem_cons, not_or] at hk
      rw [h6 k hk.2, h3 k hk.1]

theorem appended_cons (p : Plains E) (i j : Nat) (l : List (Nat × Nat)) :
    appended p ((i, j) :: l) = appended (change p i fun x => { x with events := x.events ++ eventsOf p j }) l := rfl

theorem appends_refines (A : Allocator E) : ∀ (l : List (Nat × Nat)) {w : World E} {p : Plains E}, Refines w p →
    (∀ ij ∈ l, ij.1 ≠ ij.2 ∧ (∃ x, Has p ij.1 x) ∧ ∃ x, Has p ij.2 x) →
    ∃ w', l.foldlM (fun w ij => leafAddToEnd A w ij.1 ij.2) w = .ok w' ∧ Refines w' (appended p l) ∧
      ∀ k x, Has p k x → ∃ x', Has (appended p l) k x' ∧ x'.room = x.room ∧ x.events <+: x'.events ∧
        (x'.events.length ≤ x.room → Stays w w' k) := by
  intro l
  induction l with
  | nil => intro w p h _; exact ⟨w, rfl, h, fun k x hx => ⟨x, hx, rfl, List.prefix_rfl, fun _ => Stays.refl⟩⟩
  | cons ij l ih =>
    intro w p h hl
    obtain ⟨hij, ⟨x, hx⟩, y, hy⟩ := hl ij (by simp)
    obtain ⟨w1, h1, h2, h3, h3'⟩ := leafAddToEnd_refines A h hij hx hy
    have hmono : ∀ k z, Has p k z → ∃ z', Has (p.set ij.1 (some { x with events := x.events ++ y.events })) k z' ∧
        z'.room = z.room ∧ z.events <+: z'.events ∧ (z'.events.length ≤ z.room → Stays w w1 k) := by
      intro k z hz
      by_cases hk : ij.1 = k
      · subst hk
        obtain rfl := hz.unique hx
        exact ⟨_, hx.set_self, rfl, List.prefix_append _ _, fun hle => h3 (by simpa using hle)⟩
      · exact ⟨z, hz.set_ne hk, rfl, List.prefix_rfl, fun _ => Stays.of_eq (h3' k (Ne.symm hk))⟩
    obtain ⟨w2, h4, h5, h6⟩ := ih h2 (by
      intro jk hjk
      obtain ⟨h7, ⟨z, hz⟩, z', hz'⟩ := hl jk (by simp [hjk])
      obtain ⟨u, hu, -⟩ := hmono _ _ hz
      obtain ⟨u', hu', -⟩ := hmono _ _ hz'
      exact ⟨h7, ⟨u, hu⟩, u', hu'⟩)
    refine ⟨w2, ?_, ?_, ?_⟩
    · rw [List.foldlM_cons, h1]; exact h4
    · rw [show ij = (ij.1, ij.2) from rfl, appended_cons, change_set hx, eventsOf_has hy]; exact h5
    · intro k z hz
      obtain ⟨u, hu, e1, e2, e3⟩ := hmono k z hz
      obtain ⟨v, hv, e4, e5, e6⟩ := h6 k u hu
      refine ⟨v, ?_, e4.trans e1, e2.trans e5, fun hle => (e3 ?_).trans (e6 (by rw [e1]; exact hle))⟩
      · rw [show ij = (ij.1, ij.2) from rfl, appended_cons, change_set hx, eventsOf_has hy]; exact hv
      · exact e5.length_le.trans hle

/-! ### Collections of diagrams -/

theorem foldlM_flatMap {α β γ : Type} (f : α → List β) (g : γ → β → Except Err γ) : ∀ (l : List α) (a : γ),
    (l.flatMap f).foldlM g a = l.foldlM (fun a x => (f x).foldlM g a) a := by
  intro l
  induction l with
  | nil => intro a; rfl
  | cons x l ih =>
    intro a
    rw [List.flatMap_cons, List.foldlM_append, List.foldlM_cons]
    exact bind_congr fun b => ih b

theorem zip_flatMap {α β γ : Type} (f : α → List β) (g : α → List γ) : ∀ (l : List α), (∀ x, (f x).length = (g x).length) →
    (l.flatMap f).zip (l.flatMap g) = l.flatMap fun x => (f x).zip (g x) := by
  intro l h
  induction l with
  | nil => rfl
  | cons x l ih => rw [List.flatMap_cons, List.flatMap_cons, List.flatMap_cons, List.zip_append (h x), ih]

theorem length_flatMap' {α β γ : Type} (f : α → List β) (g : α → List γ) (l : List α) (h : ∀ x, (f x).length = (g x).length) :
    (l.flatMap f).length = (l.flatMap g).length := by
  simp [List.length_flatMap, h]

theorem clear_eq {t : Tree} (h : Complete t) (w : World E) : t.clear w = (leaves t).foldlM (fun w i => leafClear w i) w := by
  induction t generalizing w with
  | leaf i => simp [Tree.clear, leaves]
  | null => exact h.elim
  | diagram n subs ih =>
    rw [Tree.clear, leaves, foldlM_flatMap]
    exact congrArg (fun f => List.foldlM f w (List.finRange n)) (funext fun w => funext fun k => ih k (h k) w)

theorem Spec.SameShape.leaves_length : ∀ {a b : Tree}, SameShape a b → (leaves a).length = (leaves b).length := by
  intro a
  induction a with
  | leaf i => intro b h; cases b with
    | leaf j => rfl
    | null => exact h.elim
    | diagram => exact h.elim
  | null => intro b h; exact h.elim
  | diagram n subs ih => intro b h; cases b with
    | leaf j => exact h.elim
    | null => exact h.elim
    | diagram n' subs' =>
      obtain ⟨rfl, h⟩ := h
      exact length_flatMap' _ _ _ fun k => ih k (h k)

theorem addToEnd_eq (A : Allocator E) : ∀ {a b : Tree}, SameShape a b → ∀ w : World E,
    a.addToEnd A b w = ((leaves a).zip (leaves b)).foldlM (fun w ij => leafAddToEnd A w ij.1 ij.2) w := by
  intro a
  induction a with
  | leaf i => intro b h w; cases b with
    | leaf j => simp [Tree.addToEnd, leaves]
    | null => exact h.elim
    | diagram => exact h.elim
  | null => intro b h; exact h.elim
  | diagram n subs ih => intro b h w; cases b with
    | leaf j => exact h.elim
    | null => exact h.elim
    | diagram n' subs' =>
      obtain ⟨rfl, h⟩ := h
      rw [Tree.addToEnd, dif_pos rfl, leaves, leaves, zip_flatMap, foldlM_flatMap]
      · exact congrArg (fun f => List.foldlM f w (List.finRange n)) (funext fun w => funext fun k => ih k (h k) w)
      · exact fun k => (h k).leaves_length

theorem foldlM_ok_all {α β : Type} {f : β → α → Except Err β} : ∀ {l : List α} {b b' : β}, l.foldlM f b = .ok b' →
    ∀ x ∈ l, ∃ c c', f c x = .ok c' := by
  intro l
  induction l with
  | nil => intro b b' _ x hx; cases hx
  | cons y l ih =>
    intro b b' h x hx
    rw [List.foldlM_cons, bind_ok] at h
    obtain ⟨c, h1, h2⟩ := h
    rcases List.mem_cons.1 hx with rfl | hx
    · exact ⟨b, c, h1⟩
    · exact ih h2 x hx

theorem addToEnd_shape (A : Allocator E) : ∀ {a b : Tree} {w w' : World E}, a.addToEnd A b w = .ok w' → SameShape a b := by
  intro a
  induction a with
  | leaf i => intro b w w' h; cases b with
    | leaf j => trivial
    | null => cases h
    | diagram => cases h
  | null => intro b w w' h; cases b <;> cases h
  | diagram n subs ih => intro b w w' h; cases b with
    | leaf j => cases h
    | null => cases h
    | diagram n' subs' =>
      rw [Tree.addToEnd] at h
      by_cases hn : n = n'
      · rw [dif_pos hn] at h
        refine ⟨hn, fun k => ?_⟩
        obtain ⟨c, c', hk⟩ := foldlM_ok_all h k (List.mem_finRange k)
        exact ih k hk
      · rw [dif_neg hn] at h
        cases h

theorem hasEvents_refines {w : World E} {p : Plains E} (h : Refines w p) {t : Tree} (ht : Live p t) :
    t.hasEvents w = .ok ((leaves t).any fun i => !(eventsOf p i).isEmpty) := by
  induction t with
  | leaf i =>
    obtain ⟨x, hx⟩ := ht.2 i (by simp [leaves])
    simp [Tree.hasEvents, leafHasEvents_refines h hx, leaves, eventsOf_has hx]
  | null => exact ht.1.elim
  | diagram n subs ih =>
    rw [Tree.hasEvents, leaves, List.any_flatMap]
    have hs : ∀ k, (subs k).hasEvents w = .ok ((leaves (subs k)).any fun i => !(eventsOf p i).isEmpty) := fun k =>
      ih k ⟨ht.1 k, fun i hi => ht.2 i (by rw [leaves]; exact List.mem_flatMap.2 ⟨k, List.mem_finRange k, hi⟩)⟩
    have : ∀ (l : List (Fin n)) (b : Bool), l.foldlM (fun b k => if b then .ok true else (subs k).hasEvents w) b =
        (.ok (b || l.any fun k => (leaves (subs k)).any fun i => !(eventsOf p i).isEmpty) : Except Err Bool) := by
      intro l
      induction l with
      | nil => intro b; simp [pure, Except.pure]
      | cons k l ih' =>
        intro b
        rw [List.foldlM_cons, List.any_cons]
        cases b with
        | true => simp only [if_true, bind, Except.bind]; rw [ih']; simp
        | false =>
          simp only [Bool.false_eq_true, if_false, hs k, bind, Except.bind]
          rw [ih']
          simp
    rw [this]
    simp

end Maliput.EventColl
