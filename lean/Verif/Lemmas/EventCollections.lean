import Mathlib.Data.List.Induction
import Verif.Lemmas.Monad
import Verif.Spec.EventCollections

set_option autoImplicit false

/-! Lemmas about collections of events: the invariant that relates them to lists of events. -/
namespace Maliput.EventColl
open Maliput Spec

variable {E S D : Type}

/-- The collection `c` holds `x` in the memory `m`. -/
structure Holds (m : Mem E) (c : Coll) (x : Plain E) : Prop where
  ex : ∃ b, m[c.storage]? = some b ∧ b.live = true ∧ b.items = x.events ∧ x.room ≤ b.cap ∧
    c.events = (List.range x.events.length).map (pointerTo c.storage b)

/-- The collections are what they are to be. -/
structure Refines (w : World E) (p : Plains E) : Prop where
  len : w.colls.length = p.length
  holds : ∀ i x, Has p i x → ∃ c, w.colls[i]? = some (some c) ∧ Holds w.mem c x
  gone : ∀ i : Nat, p[i]? = some none → w.colls[i]? = some none
  apart : ∀ (i j : Nat) c c', w.colls[i]? = some (some c) → w.colls[j]? = some (some c') → c.storage = c'.storage → i = j

theorem Refines.empty : Refines (⟨[], []⟩ : World E) [] :=
  ⟨rfl, by simp [Has], by simp, by simp⟩

theorem Holds.lt {m : Mem E} {c : Coll} {x : Plain E} (h : Holds m c x) : c.storage < m.length := by
  obtain ⟨b, hb, -⟩ := h.ex
  exact (List.getElem?_eq_some_iff.1 hb).1

theorem Holds.frame {m m' : Mem E} {c : Coll} {x : Plain E} (h : Holds m c x) (he : m'[c.storage]? = m[c.storage]?) : Holds m' c x := by
  obtain ⟨b, hb, hr⟩ := h.ex
  exact ⟨b, by rw [he, hb], hr⟩

theorem Refines.has {w : World E} {p : Plains E} (h : Refines w p) {i : Nat} {c : Coll} (hc : w.colls[i]? = some (some c)) :
    ∃ x, Has p i x ∧ Holds w.mem c x := by
  have hlt : i < p.length := by rw [← h.len]; exact (List.getElem?_eq_some_iff.1 hc).1
  rcases hp : p[i] with _ | x
  · have := h.gone i (by rw [List.getElem?_eq_getElem hlt, hp])
    rw [hc] at this
    cases this
  · have hx : Has p i x := by rw [Has, List.getElem?_eq_getElem hlt, hp]
    obtain ⟨c', hc', hh⟩ := h.holds i x hx
    rw [hc] at hc'
    cases hc'
    exact ⟨x, hx, hh⟩

theorem Spec.Has.unique {p : Plains E} {i : Nat} {x y : Plain E} (h : Has p i x) (h' : Has p i y) : x = y := by
  rw [Has] at h h'
  rw [h] at h'
  cases h'
  rfl

/-- One collection is changed, in its block or with a new one. -/
theorem Refines.update {w : World E} {p : Plains E} (h : Refines w p) {i : Nat} {c c' : Coll} {x' : Plain E} {m' : Mem E}
    (hc : w.colls[i]? = some (some c)) (hh : Holds m' c' x') (hm : ∀ s, s < w.mem.length → s ≠ c.storage → m'[s]? = w.mem[s]?)
    (hs : c'.storage = c.storage ∨ w.mem.length ≤ c'.storage) : Refines ⟨m', w.colls.set i (some c')⟩ (p.set i (some x')) := by
  have hi := (List.getElem?_eq_some_iff.1 hc).1
  have hother : ∀ j d, j ≠ i → w.colls[j]? = some (some d) → d.storage < w.mem.length ∧ d.storage ≠ c.storage := by
    intro j d hj hd
    obtain ⟨x, -, hx⟩ := h.has hd
    exact ⟨hx.lt, fun e => hj (h.apart j i d c hd hc e)⟩
  refine ⟨by simp [h.len], ?_, ?_, ?_⟩
  · intro j x hx
    by_cases hj : i = j
    · subst hj
      rw [Has, List.getElem?_set_self (by rw [← h.len]; exact hi)] at hx
      cases hx
      exact ⟨c', List.getElem?_set_self hi, hh⟩
    · rw [Has, List.getElem?_set_ne hj] at hx
      obtain ⟨d, hd, hdh⟩ := h.holds j x hx
      obtain ⟨h1, h2⟩ := hother j d (Ne.symm hj) hd
      exact ⟨d, by simp only [List.getElem?_set_ne hj, hd], hdh.frame (hm _ h1 h2)⟩
  · intro j hj'
    by_cases hj : i = j
    · subst hj
      rw [List.getElem?_set_self (by rw [← h.len]; exact hi)] at hj'
      cases hj'
    · rw [List.getElem?_set_ne hj] at hj'
      simp only [List.getElem?_set_ne hj, h.gone j hj']
  · have key : ∀ j d, j ≠ i → w.colls[j]? = some (some d) → c'.storage ≠ d.storage := by
      intro j d hj hd
      obtain ⟨h1, h2⟩ := hother j d hj hd
      rcases hs with hs | hs
      · rw [hs]; exact Ne.symm h2
      · omega
    intro j k d d' hd hd' he
    by_cases hj : i = j <;> by_cases hk : i = k
    · rw [← hj, ← hk]
    · subst hj
      rw [List.getElem?_set_self hi] at hd
      rw [List.getElem?_set_ne hk] at hd'
      cases hd
      exact absurd he (key k d' (Ne.symm hk) hd')
    · subst hk
      rw [List.getElem?_set_self hi] at hd'
      rw [List.getElem?_set_ne hj] at hd
      cases hd'
      exact absurd he.symm (key j d (Ne.symm hj) hd)
    · rw [List.getElem?_set_ne hj] at hd
      rw [List.getElem?_set_ne hk] at hd'
      exact h.apart j k d d' hd hd' he

theorem change_set {p : Plains E} {i : Nat} {x : Plain E} (h : Has p i x) (f : Plain E → Plain E) : change p i f = p.set i (some (f x)) := by
  rw [Has] at h
  rw [change, List.modify_eq_set_getElem?, h]
  simp

theorem coll_ok {w : World E} {i : Nat} {c : Coll} (h : w.colls[i]? = some (some c)) : w.coll i = .ok c := by
  simp [World.coll, h]

theorem blockAt_ok {m : Mem E} {s : Nat} {b : Block E} (h : m[s]? = some b) (hl : b.live = true) : blockAt m s = .ok b := by
  simp [blockAt, h, hl]

theorem realloc_get {A : Allocator E} {m : Mem E} {s : Nat} {b : Block E} {n : Nat} {items : List E} :
    (realloc A m s b n items).1[(realloc A m s b n items).2]? = some ⟨A.place m, A.room n, items, true⟩ := by
  simp [realloc]

theorem realloc_frame {A : Allocator E} {m : Mem E} {s : Nat} {b : Block E} {n : Nat} {items : List E} {k : Nat} (hk : k < m.length)
    (hs : k ≠ s) : (realloc A m s b n items).1[k]? = m[k]? := by
  rw [realloc, List.getElem?_append_left (by simpa using hk), List.getElem?_set_ne (Ne.symm hs)]

/-! ### Single calls -/

theorem make_refines (A : Allocator E) {w : World E} {p : Plains E} (h : Refines w p) :
    Refines (make A w) (p ++ [some ⟨[], 32⟩]) := by
  have hframe : ∀ c x, Holds w.mem c x → Holds (make A w).mem c x := by
    intro c x hx
    refine hx.frame ?_
    simp only [make]
    rw [List.getElem?_append_left hx.lt]
  refine ⟨by simp [make, h.len], ?_, ?_, ?_⟩
  · intro i x hx
    rw [Has] at hx
    by_cases hi : i < p.length
    · rw [List.getElem?_append_left hi] at hx
      obtain ⟨c, hc, hh⟩ := h.holds i x hx
      refine ⟨c, ?_, hframe c x hh⟩
      simp only [make]
      rw [List.getElem?_append_left (by rw [h.len]; exact hi), hc]
    · have hlt := (List.getElem?_eq_some_iff.1 hx).1
      simp only [List.length_append, List.length_cons, List.length_nil] at hlt
      obtain rfl : i = p.length := by omega
      rw [List.getElem?_append_right (by omega)] at hx
      simp only [Nat.sub_self, List.getElem?_cons_zero, Option.some.injEq] at hx
      subst hx
      refine ⟨⟨w.mem.length, []⟩, ?_, ⟨A.place w.mem, A.room 32, [], true⟩, ?_, rfl, rfl, A.enough 32, rfl⟩
      · simp [make, ← h.len]
      · simp [make]
  · intro i hi
    by_cases hlt : i < p.length
    · rw [List.getElem?_append_left hlt] at hi
      simp only [make]
      rw [List.getElem?_append_left (by rw [h.len]; exact hlt)]
      exact h.gone i hi
    · have hlt' := (List.getElem?_eq_some_iff.1 hi).1
      simp only [List.length_append, List.length_cons, List.length_nil] at hlt'
      obtain rfl : i = p.length := by omega
      simp at hi
  · have key : ∀ i c, (make A w).colls[i]? = some (some c) →
        (i = w.colls.length ∧ c.storage = w.mem.length) ∨ (w.colls[i]? = some (some c) ∧ c.storage < w.mem.length) := by
      intro i c hc
      simp only [make] at hc
      by_cases hi : i < w.colls.length
      · rw [List.getElem?_append_left hi] at hc
        obtain ⟨x, -, hx⟩ := h.has hc
        exact Or.inr ⟨hc, hx.lt⟩
      · have hlt := (List.getElem?_eq_some_iff.1 hc).1
        simp only [List.length_append, List.length_cons, List.length_nil] at hlt
        obtain rfl : i = w.colls.length := by omega
        simp only [List.getElem?_concat_length, Option.some.injEq] at hc
        subst hc
        exact Or.inl ⟨rfl, rfl⟩
    intro i j c c' hc hc' he
    rcases key i c hc with ⟨h1, h2⟩ | ⟨h1, h2⟩ <;> rcases key j c' hc' with ⟨h3, h4⟩ | ⟨h3, h4⟩
    · omega
    · omega
    · omega
    · exact h.apart i j c c' h1 h3 he

/-- What a call may do to the collection of a leaf system other than to change its events: the block is kept if there is room. -/
def Stays (w w' : World E) (i : Nat) : Prop :=
  ∀ c, w.colls[i]? = some (some c) → ∃ c', w'.colls[i]? = some (some c') ∧ c'.storage = c.storage

theorem Stays.refl {w : World E} {i : Nat} : Stays w w i := fun c hc => ⟨c, hc, rfl⟩

theorem Stays.trans {w w' w'' : World E} {i : Nat} (h : Stays w w' i) (h' : Stays w' w'' i) : Stays w w'' i := by
  intro c hc
  obtain ⟨c', hc', e⟩ := h c hc
  obtain ⟨c'', hc'', e'⟩ := h' c' hc'
  exact ⟨c'', hc'', e'.trans e⟩

theorem Stays.of_eq {w w' : World E} {i : Nat} (h : w'.colls[i]? = w.colls[i]?) : Stays w w' i := fun c hc => ⟨c, h.trans hc, rfl⟩

theorem addEvent_refines (A : Allocator E) {w : World E} {p : Plains E} (h : Refines w p) {i : Nat} {x : Plain E} (hx : Has p i x)
    (e : E) : ∃ w', addEvent A w i e = .ok w' ∧ Refines w' (p.set i (some { x with events := x.events ++ [e] })) ∧
      (x.events.length < x.room → Stays w w' i) ∧ ∀ j : Nat, j ≠ i → w'.colls[j]? = w.colls[j]? := by
  obtain ⟨c, hc, hh⟩ := h.holds i x hx
  obtain ⟨b, hb, hl, hi, hr, he⟩ := hh.ex
  have hlt := hh.lt
  have hw := (List.getElem?_eq_some_iff.1 hc).1
  simp only [addEvent, coll_ok hc, bind, Except.bind, pushBack, blockAt_ok hb hl]
  have hmap : ∀ (s : Nat) (b' : Block E), b'.items = x.events ++ [e] →
      (List.range x.events.length).map (pointerTo s b') ++ [pointerTo s b' (b'.items.length - 1)] =
        (List.range (x.events ++ [e]).length).map (pointerTo s b') := by
    intro s b' hb'
    rw [hb', List.length_append, List.length_cons, List.length_nil, List.range_succ, List.map_append]
    simp
  by_cases hcap : b.items.length < b.cap
  · rw [if_pos hcap]
    have hb' : (w.mem.set c.storage { b with items := b.items ++ [e] })[c.storage]? = some { b with items := b.items ++ [e] } :=
      List.getElem?_set_self hlt
    simp only [pure, Except.pure, blockAt_ok hb' hl]
    refine ⟨_, rfl, h.update hc ⟨_, hb', hl, by simp [hi], hr, ?_⟩ (fun s _ hs => List.getElem?_set_ne (Ne.symm hs)) (Or.inl rfl), ?_, ?_⟩
    · have := hmap c.storage { b with items := b.items ++ [e] } (by simp [hi])
      dsimp only at this ⊢
      rw [← this, he]
      cases hxe : x.events with
      | nil => simp [newPointers]
      | cons a l =>
        rw [List.length_cons, List.range_succ_eq_map, List.map_cons, newPointers, if_pos (by simp [pointerTo])]
        rfl
    · intro _ d hd
      rw [hc] at hd
      cases hd
      exact ⟨_, List.getElem?_set_self hw, rfl⟩
    · intro j hj
      exact List.getElem?_set_ne (Ne.symm hj)
  · rw [if_neg hcap]
    have hb' := realloc_get (A := A) (m := w.mem) (s := c.storage) (b := b) (n := b.items.length + 1) (items := b.items ++ [e])
    simp only [pure, Except.pure, blockAt_ok hb' rfl]
    have hne : b.addr ≠ A.place w.mem := A.free w.mem b (List.mem_of_getElem? hb) hl
    refine ⟨_, rfl, h.update hc ⟨_, hb', rfl, by simp [hi], ?_, ?_⟩ (fun s h1 h2 => realloc_frame h1 h2) (Or.inr (by simp [realloc])), ?_, ?_⟩
    · have := A.enough (b.items.length + 1)
      dsimp only
      omega
    · dsimp only
      rw [he]
      cases hxe : x.events with
      | nil => simp [newPointers, pointerTo, hi, hxe]
      | cons a l =>
        rw [List.length_cons, List.range_succ_eq_map, List.map_cons, newPointers, if_neg (by simp [pointerTo, hne])]
        simp only [hi, hxe]
    · intro hroom
      rw [← hi] at hroom
      omega
    · intro j hj
      exact List.getElem?_set_ne (Ne.symm hj)

theorem clear_refines {w : World E} {p : Plains E} (h : Refines w p) {i : Nat} {x : Plain E} (hx : Has p i x) :
    ∃ w', leafClear w i = .ok w' ∧ Refines w' (p.set i (some { x with events := [] })) ∧ ∀ j : Nat, j ≠ i → w'.colls[j]? = w.colls[j]? := by
  obtain ⟨c, hc, hh⟩ := h.holds i x hx
  obtain ⟨b, hb, hl, hi, hr, he⟩ := hh.ex
  simp only [leafClear, coll_ok hc, bind, Except.bind, blockAt_ok hb hl, pure, Except.pure]
  refine ⟨_, rfl, h.update hc ⟨_, List.getElem?_set_self hh.lt, hl, rfl, hr, rfl⟩ (fun s _ hs => List.getElem?_set_ne (Ne.symm hs))
    (Or.inl rfl), fun j hj => List.getElem?_set_ne (Ne.symm hj)⟩

theorem reserve_refines (A : Allocator E) {w : World E} {p : Plains E} (h : Refines w p) {i n : Nat} {x : Plain E} (hx : Has p i x)
    (hv : x.events = [] ∨ n ≤ x.room) :
    ∃ w', reserve A w i n = .ok w' ∧ Refines w' (p.set i (some { x with room := max x.room n })) ∧
      (n ≤ x.room → Stays w w' i) ∧ ∀ j : Nat, j ≠ i → w'.colls[j]? = w.colls[j]? := by
  obtain ⟨c, hc, hh⟩ := h.holds i x hx
  obtain ⟨b, hb, hl, hi, hr, he⟩ := hh.ex
  have hw := (List.getElem?_eq_some_iff.1 hc).1
  simp only [reserve, coll_ok hc, bind, Except.bind, reserveVec, blockAt_ok hb hl]
  by_cases hcap : n ≤ b.cap
  · simp only [if_pos hcap, pure, Except.pure]
    refine ⟨_, rfl, h.update hc ⟨b, hb, hl, hi, by simp [hr, hcap], he⟩ (fun _ _ _ => rfl) (Or.inl rfl), ?_, fun j hj => List.getElem?_set_ne (Ne.symm hj)⟩
    intro _ d hd
    rw [hc] at hd
    cases hd
    exact ⟨_, List.getElem?_set_self hw, rfl⟩
  · have hnil : x.events = [] := hv.resolve_right (by omega)
    simp only [if_neg hcap, pure, Except.pure]
    refine ⟨_, rfl, h.update hc ⟨_, realloc_get, rfl, hi, ?_, ?_⟩ (fun s h1 h2 => realloc_frame h1 h2) (Or.inr (by simp [realloc])), ?_,
      fun j hj => List.getElem?_set_ne (Ne.symm hj)⟩
    · have := A.enough n
      simp only [sup_le_iff]
      omega
    · simp [hnil, he]
    · intro hn
      omega

theorem destroy_refines {w : World E} {p : Plains E} (h : Refines w p) {i : Nat} {x : Plain E} (hx : Has p i x) :
    ∃ w', destroy w i = .ok w' ∧ Refines w' (p.set i none) ∧ ∀ j : Nat, j ≠ i → w'.colls[j]? = w.colls[j]? := by
  obtain ⟨c, hc, hh⟩ := h.holds i x hx
  obtain ⟨b, hb, hl, hi, hr, he⟩ := hh.ex
  have hw := (List.getElem?_eq_some_iff.1 hc).1
  simp only [destroy, coll_ok hc, bind, Except.bind, blockAt_ok hb hl, pure, Except.pure]
  refine ⟨_, rfl, ⟨by simp [h.len], ?_, ?_, ?_⟩, fun j hj => List.getElem?_set_ne (Ne.symm hj)⟩
  · intro j y hy
    have hj : i ≠ j := by
      rintro rfl
      rw [Has, List.getElem?_set_self (by rw [← h.len]; exact hw)] at hy
      cases hy
    rw [Has, List.getElem?_set_ne hj] at hy
    obtain ⟨d, hd, hdh⟩ := h.holds j y hy
    refine ⟨d, by simp only [List.getElem?_set_ne hj, hd], hdh.frame (List.getElem?_set_ne ?_)⟩
    exact fun e => hj (h.apart i j c d hc hd e)
  · intro j hj'
    by_cases hj : i = j
    · subst hj
      simp only [List.getElem?_set_self hw]
    · rw [List.getElem?_set_ne hj] at hj'
      simp only [List.getElem?_set_ne hj, h.gone j hj']
  · intro j k d d' hd hd' he
    have hne : ∀ (j : Nat) d, (w.colls.set i none)[j]? = some (some d) → w.colls[j]? = some (some d) := by
      intro j d hd
      by_cases hj : i = j
      · subst hj
        rw [List.getElem?_set_self hw] at hd
        cases hd
      · rwa [List.getElem?_set_ne hj] at hd
    exact h.apart j k d d' (hne j d hd) (hne k d' hd') he

/-! ### Reading -/

theorem mapM_deref {m : Mem E} {s : Nat} {b : Block E} (hb : m[s]? = some b) (hl : b.live = true) :
    ∀ (l : List Nat), (∀ k ∈ l, k < b.items.length) →
      (l.map (pointerTo s b)).mapM (deref m) = .ok (l.filterMap (b.items[·]?)) := by
  intro l
  induction l with
  | nil => intro _; rfl
  | cons k l ih =>
    intro hk
    have h1 : k < b.items.length := hk k (by simp)
    rw [List.map_cons, List.mapM_cons, ih fun j hj => hk j (by simp [hj])]
    simp [deref, pointerTo, blockAt_ok hb hl, bind, Except.bind, pure, Except.pure, List.getElem?_eq_getElem h1]

theorem filterMap_range (l : List E) : (List.range l.length).filterMap (l[·]?) = l := by
  induction l using List.reverseRecOn with
  | nil => rfl
  | append_singleton l a ih =>
    rw [List.length_append, List.length_singleton, List.range_succ, List.filterMap_append]
    have : (List.range l.length).filterMap ((l ++ [a])[·]?) = (List.range l.length).filterMap (l[·]?) := by
      apply List.filterMap_congr
      intro k hk
      rw [List.getElem?_append_left (List.mem_range.1 hk)]
    rw [this, ih]
    simp

theorem getEvents_refines {w : World E} {p : Plains E} (h : Refines w p) {i : Nat} {x : Plain E} (hx : Has p i x) :
    getEvents w i = .ok x.events := by
  obtain ⟨c, hc, hh⟩ := h.holds i x hx
  obtain ⟨b, hb, hl, hi, hr, he⟩ := hh.ex
  simp only [getEvents, coll_ok hc, bind, Except.bind]
  rw [he, mapM_deref hb hl _ (by intro k hk; rw [hi]; exact List.mem_range.1 hk), hi, filterMap_range]

theorem leafHasEvents_refines {w : World E} {p : Plains E} (h : Refines w p) {i : Nat} {x : Plain E} (hx : Has p i x) :
    leafHasEvents w i = .ok (!x.events.isEmpty) := by
  obtain ⟨c, hc, hh⟩ := h.holds i x hx
  obtain ⟨b, hb, hl, hi, hr, he⟩ := hh.ex
  simp only [leafHasEvents, coll_ok hc, bind, Except.bind, blockAt_ok hb hl, pure, Except.pure, hi]

end Maliput.EventColl
