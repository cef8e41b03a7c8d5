import Verif.Lemmas.Route

set_option autoImplicit false

/-! Lemmas about `Route::ComputeLaneSRoute`. -/
namespace Maliput.Route
open Maliput.Router (RoadNet RoadPos Phase positionInRanges lift_ok)
open Maliput.Strategy (Pos)
open Maliput.Spec Maliput.Route.Spec
open Maliput.RouteGraph (Stop lift)

theorem rangeAt_unique {route : List Phase} {i j : Nat} {x y : LaneSRange} (hx : RangeAt route i j x)
    (hy : RangeAt route i j y) : x = y := by
  obtain ⟨p, hp, hx⟩ := hx
  obtain ⟨p', hp', hy⟩ := hy
  rw [hp] at hp'
  cases hp'
  rw [hx] at hy
  cases hy
  rfl

theorem holds_refl {tol : ℚ} (ht : 0 ≤ tol) (x : LaneSRange) : Holds tol x x :=
  ⟨rfl, fun y hy => ⟨y, hy, by simpa using ht⟩⟩

/-- The relation of two valid ranges: unknown, or that of their first places. -/
theorem relation_spec {net : RoadNet} {geo : Geo} (ht : 0 ≤ geo.tol) {route : List Phase} (hv : ValidRanges net route)
    {a b : LaneSRange} (ha : ValidRange a.sRange) (hb : ValidRange b.sRange) :
    (relation net geo route a b = .ok .unknown ∧ (¬PartOf geo.tol route a ∨ ¬PartOf geo.tol route b)) ∨
      ∃ i j x k l y rel, FirstPlace geo.tol route a i j x ∧ FirstPlace geo.tol route b k l y ∧
        relation net geo route a b = .ok rel ∧ rel ≠ .unknown ∧
          ∀ rel', RelatedBy net geo i j x k l y rel' ↔ rel' = rel := by
  unfold relation
  rcases findIndex_spec ht hv ha with ⟨h1, h2⟩ | ⟨i, j, x, h1, h2⟩
  · obtain ⟨o, ho⟩ : ∃ o, findIndex geo.tol route b = .ok o := by
      rcases findIndex_spec ht hv hb with ⟨h, -⟩ | ⟨_, _, _, h, -⟩ <;> exact ⟨_, h⟩
    rw [h1, ho]
    exact .inl ⟨rfl, .inl h2⟩
  · rcases findIndex_spec ht hv hb with ⟨h3, h4⟩ | ⟨k, l, y, h3, h4⟩
    · rw [h1, h3]
      exact .inl ⟨rfl, .inr h4⟩
    · rw [h1, h3]
      obtain ⟨rel, h5, h6⟩ := relationAt_spec (geo := geo) hv h2.there h4.there
      refine .inr ⟨i, j, x, k, l, y, rel, h2, h4, h5, ?_, h6⟩
      rintro rfl
      exact ((h6 .unknown).2 rfl).elim

theorem relation_ok {net : RoadNet} {geo : Geo} (ht : 0 ≤ geo.tol) {route : List Phase} (hv : ValidRanges net route)
    {a b : LaneSRange} (ha : ValidRange a.sRange) (hb : ValidRange b.sRange) :
    ∃ rel, relation net geo route a b = .ok rel := by
  rcases relation_spec ht hv ha hb with ⟨h, -⟩ | ⟨_, _, _, _, _, _, _, _, _, h, -⟩ <;> exact ⟨_, h⟩

/-- In a route without ambiguity a range is found where it is. -/
theorem firstPlace_of_distinct {tol : ℚ} (ht : 0 ≤ tol) {route : List Phase} (hd : Distinct tol route) {i j : Nat}
    {x : LaneSRange} (hx : RangeAt route i j x) : FirstPlace tol route x i j x :=
  ⟨hx, holds_refl ht x, fun _ _ _ hy h => by
    obtain ⟨rfl, rfl⟩ := hd _ _ _ _ _ _ hy hx h
    exact .inr ⟨rfl, le_refl _⟩⟩

theorem relation_of_distinct {net : RoadNet} {geo : Geo} (ht : 0 ≤ geo.tol) {route : List Phase}
    (hv : ValidRanges net route) (hd : Distinct geo.tol route) {i j k l : Nat} {x y : LaneSRange}
    (hx : RangeAt route i j x) (hy : RangeAt route k l y) :
    ∃ rel, relation net geo route x y = .ok rel ∧ ∀ rel', RelatedBy net geo i j x k l y rel' ↔ rel' = rel := by
  have fx := firstPlace_of_distinct ht hd hx
  have fy := firstPlace_of_distinct ht hd hy
  rcases relation_spec (geo := geo) ht hv (hv _ _ _ hx).1 (hv _ _ _ hy).1 with
    ⟨-, h | h⟩ | ⟨i', j', x', k', l', y', rel, h1, h2, h3, -, h4⟩
  · exact absurd ⟨_, _, _, fx.there, fx.holds⟩ h
  · exact absurd ⟨_, _, _, fy.there, fy.holds⟩ h
  · obtain ⟨rfl, rfl, rfl⟩ := firstPlace_unique fx h1
    obtain ⟨rfl, rfl, rfl⟩ := firstPlace_unique fy h2
    exact ⟨rel, h3, h4⟩

/-! ### Straight predecessors -/

theorem findStraight_some {net : RoadNet} {geo : Geo} {route : List Phase} {r : LaneSRange}
    {l : List (LaneSRange × Nat)} {k : Nat} (h : findStraight net geo route r l = .ok (some k)) :
    ∃ x, (x, k) ∈ l ∧ relation net geo route r x = .ok .precedingStraight := by
  induction l with
  | nil => cases h
  | cons a l ih =>
    obtain ⟨x, n⟩ := a
    simp only [findStraight, bind_ok] at h
    obtain ⟨rel, hrel, h⟩ := h
    split at h
    · rename_i he
      cases h
      exact ⟨x, by simp, he ▸ hrel⟩
    · obtain ⟨y, hy, h'⟩ := ih h
      exact ⟨y, by simp [hy], h'⟩

theorem findStraight_total {net : RoadNet} {geo : Geo} {route : List Phase} {r : LaneSRange}
    {l : List (LaneSRange × Nat)} (h : ∀ x ∈ l, ∃ rel, relation net geo route r x.1 = .ok rel) :
    (∃ k, findStraight net geo route r l = .ok (some k)) ∨
      (findStraight net geo route r l = .ok none ∧
        ∀ x ∈ l, relation net geo route r x.1 ≠ .ok .precedingStraight) := by
  induction l with
  | nil => exact .inr ⟨rfl, by simp⟩
  | cons a l ih =>
    obtain ⟨x, n⟩ := a
    obtain ⟨rel, hrel⟩ := h (x, n) (by simp)
    by_cases he : rel = .precedingStraight
    · left
      refine ⟨n, ?_⟩
      simp [findStraight, hrel, he, bind, Except.bind, pure, Except.pure]
    · have e : findStraight net geo route r ((x, n) :: l) = findStraight net geo route r l := by
        simp [findStraight, hrel, he, bind, Except.bind]
      rw [e]
      rcases ih (fun y hy => h y (by simp [hy])) with h' | ⟨h1, h2⟩
      · exact .inl h'
      · refine .inr ⟨h1, ?_⟩
        intro y hy
        rcases List.mem_cons.1 hy with rfl | hy
        · rw [hrel]; intro hc; cases hc; exact he rfl
        · exact h2 y hy

theorem straightPredecessor_some {net : RoadNet} {geo : Geo} {route : List Phase} {i p : Index}
    (h : straightPredecessor net geo route i = .ok (some p)) :
    ∃ (j k : Nat) (x y : LaneSRange), i.range = j ∧ i.phase = p.phase + 1 ∧ p.range = k ∧ RangeAt route i.phase j y ∧
      RangeAt route p.phase k x ∧ relation net geo route y x = .ok .precedingStraight := by
  simp only [straightPredecessor, bind_ok, throwUnless_ok, decide_eq_true_eq] at h
  obtain ⟨-, hi, h⟩ := h
  split at h
  · cases h
  · rename_i ph hph
    simp only [bind_ok, pure_ok] at h
    obtain ⟨y, hy, o, ho, hp⟩ := h
    obtain ⟨j, hj, hat⟩ := getRange_ok.1 hy
    cases o with
    | none => cases hp
    | some k =>
      cases hp
      obtain ⟨x, hx, hrel⟩ := findStraight_some ho
      rw [List.mem_zipIdx_iff_getElem?] at hx
      exact ⟨j, k, x, y, hj, by simp; omega, rfl, hat, ⟨ph, hph, hx⟩, hrel⟩

/-- The range at a place of a phase that is not the first has a straight predecessor. -/
def HasPredecessor (net : RoadNet) (geo : Geo) (route : List Phase) (i j : Nat) : Prop :=
  ∃ x y k, RangeAt route i k x ∧ RangeAt route (i + 1) j y ∧ LeadsTo net geo x y

theorem precedingStraight_iff {net : RoadNet} {geo : Geo} (ht : 0 ≤ geo.tol) {route : List Phase}
    (hv : ValidRanges net route) (hd : Distinct geo.tol route) {i k j : Nat} {x y : LaneSRange}
    (hx : RangeAt route i k x) (hy : RangeAt route (i + 1) j y) :
    relation net geo route y x = .ok .precedingStraight ↔ LeadsTo net geo x y := by
  obtain ⟨rel, h1, h2⟩ := relation_of_distinct (geo := geo) ht hv hd hy hx
  rw [h1]
  have := h2 .precedingStraight
  simp only [RelatedBy, true_and] at this
  rw [Except.ok.injEq, eq_comm, ← this]
  unfold LeadsTo Near
  constructor
  · rintro ⟨p, q, a, b, c, d⟩
    exact ⟨q, p, b, a, c, by linarith⟩
  · rintro ⟨p, q, a, b, c, d⟩
    exact ⟨q, p, b, a, c, by linarith⟩

theorem straightPredecessor_total {net : RoadNet} {geo : Geo} (ht : 0 ≤ geo.tol) {route : List Phase}
    (hv : ValidRanges net route) (hd : Distinct geo.tol route) {i j : Nat} {y : LaneSRange}
    (hy : RangeAt route (i + 1) j y) :
    (HasPredecessor net geo route i j ∧ ∃ p, straightPredecessor net geo route ⟨i + 1, j⟩ = .ok (some p)) ∨
      (¬HasPredecessor net geo route i j ∧ straightPredecessor net geo route ⟨i + 1, j⟩ = .ok none) := by
  obtain ⟨p', hp', -⟩ := id hy
  obtain ⟨p, hp⟩ : ∃ p, route[i]? = some p := by
    have := (List.getElem?_eq_some_iff.1 hp').1
    exact ⟨_, List.getElem?_eq_getElem (by omega)⟩
  have e : straightPredecessor net geo route ⟨i + 1, j⟩ =
      (findStraight net geo route y p.ranges.zipIdx).map (fun k => k.map (fun (k : Nat) => (⟨i, k⟩ : Index))) := by
    unfold straightPredecessor
    simp only [throwUnless, rangeAt_getRange hy, bind, Except.bind, pure, Except.pure, Nat.add_sub_cancel, hp]
    simp only [gt_iff_lt, Nat.succ_pos, decide_true, if_true]
    cases findStraight net geo route y p.ranges.zipIdx <;> rfl
  have hat : ∀ x ∈ p.ranges.zipIdx, RangeAt route i x.2 x.1 := by
    rintro ⟨x, k⟩ hx
    exact ⟨p, hp, List.mem_zipIdx_iff_getElem?.1 hx⟩
  rcases findStraight_total (net := net) (geo := geo) (route := route) (r := y) (l := p.ranges.zipIdx)
    (fun x hx => relation_ok ht hv (hv _ _ _ hy).1 (hv _ _ _ (hat x hx)).1) with ⟨k, hk⟩ | ⟨hk, hn⟩
  · left
    rw [e, hk]
    refine ⟨?_, _, rfl⟩
    obtain ⟨x, hx, hrel⟩ := findStraight_some hk
    exact ⟨x, y, k, hat _ hx, hy, (precedingStraight_iff ht hv hd (hat _ hx) hy).1 hrel⟩
  · right
    rw [e, hk]
    refine ⟨?_, rfl⟩
    rintro ⟨x, y', k, hx, hy', hl⟩
    obtain rfl := rangeAt_unique hy hy'
    obtain ⟨q, hq, hx'⟩ := id hx
    rw [hp] at hq
    cases hq
    exact hn (x, k) (List.mem_zipIdx_iff_getElem?.2 hx') ((precedingStraight_iff ht hv hd hx hy).2 hl)

/-! ### Directions -/

theorem anyM_total {α : Type} {f : α → Except Err Bool} {P : α → Prop} {xs : List α}
    (h : ∀ x ∈ xs, (P x ∧ f x = .ok true) ∨ (¬P x ∧ f x = .ok false)) :
    ((∃ x ∈ xs, P x) ∧ xs.anyM f = .ok true) ∨ ((∀ x ∈ xs, ¬P x) ∧ xs.anyM f = .ok false) := by
  induction xs with
  | nil => exact .inr ⟨by simp, rfl⟩
  | cons a xs ih =>
    rcases h a (by simp) with ⟨hp, hf⟩ | ⟨hp, hf⟩
    · left
      refine ⟨⟨a, by simp, hp⟩, ?_⟩
      simp [List.anyM, hf, bind, Except.bind, pure, Except.pure]
    · have e : List.anyM f (a :: xs) = List.anyM f xs := by
        simp [List.anyM, hf, bind, Except.bind]
      rw [e]
      rcases ih (fun x hx => h x (by simp [hx])) with ⟨⟨x, hx, hp'⟩, h'⟩ | ⟨hn, h'⟩
      · exact .inl ⟨⟨x, by simp [hx], hp'⟩, h'⟩
      · refine .inr ⟨?_, h'⟩
        intro x hx
        rcases List.mem_cons.1 hx with rfl | hx
        · exact hp
        · exact hn x hx

/-- From a range without a straight predecessor one moves to the left if there is one further left, and to
the right if there is none there but one further right. -/
theorem direction_spec {net : RoadNet} {geo : Geo} (ht : 0 ≤ geo.tol) {route : List Phase}
    (hv : ValidRanges net route) (hd : Distinct geo.tol route) {i j : Nat} {y : LaneSRange}
    (hy : RangeAt route (i + 1) j y) :
    ((∃ k > j, HasPredecessor net geo route i k) → direction net geo route ⟨i + 1, j⟩ = .ok 1) ∧
      ((∀ k > j, ¬HasPredecessor net geo route i k) → 0 < j → direction net geo route ⟨i + 1, j⟩ = .ok (-1)) := by
  obtain ⟨p, hp, hyj⟩ := id hy
  have hlt := (List.getElem?_eq_some_iff.1 hyj).1
  have size : ∀ k, HasPredecessor net geo route i k → k < p.ranges.length := by
    rintro k ⟨x, z, m, -, ⟨q, hq, hz⟩, -⟩
    rw [hp] at hq
    cases hq
    exact (List.getElem?_eq_some_iff.1 hz).1
  have any := anyM_total
    (f := fun (k : Nat) => do return (← straightPredecessor net geo route ⟨i + 1, k⟩).isSome)
    (P := HasPredecessor net geo route i)
    (xs := List.range' (j + 1) (p.ranges.length - 1 - j)) (by
      intro k hk
      rw [List.mem_range'_1] at hk
      have hk' : k < p.ranges.length := by omega
      have hz : RangeAt route (i + 1) k (p.ranges[k]) := ⟨p, hp, List.getElem?_eq_getElem hk'⟩
      rcases straightPredecessor_total (geo := geo) ht hv hd hz with ⟨h1, q, h2⟩ | ⟨h1, h2⟩
      · exact .inl ⟨h1, by simp [h2, bind, Except.bind, pure, Except.pure]⟩
      · exact .inr ⟨h1, by simp [h2, bind, Except.bind, pure, Except.pure]⟩)
  unfold direction
  rw [hp]
  simp only [Int.toNat_natCast, bind, Except.bind, pure, Except.pure] at any ⊢
  constructor
  · rintro ⟨k, hk, hh⟩
    have hk' := size k hh
    by_cases h0 : j = 0
    · simp [h0]
    · rw [if_neg (by omega), if_neg (by omega)]
      rcases any with ⟨-, h⟩ | ⟨hn, -⟩
      · rw [h]; rfl
      · exact absurd hh (hn k (by rw [List.mem_range'_1]; omega))
  · intro hn h0
    rw [if_neg (by omega)]
    split
    · rfl
    · rcases any with ⟨⟨k, hk, hh⟩, -⟩ | ⟨-, h⟩
      · rw [List.mem_range'_1] at hk
        exact absurd hh (hn k (by omega))
      · rw [h]; rfl

/-! ### The inner loop -/

theorem seek_up {net : RoadNet} {geo : Geo} (ht : 0 ≤ geo.tol) {route : List Phase} (hv : ValidRanges net route)
    (hd : Distinct geo.tol route) {i k : Nat} (hk : HasPredecessor net geo route i k) :
    ∀ (d j n : Nat) (acc : List LaneSRange), j + d = k → d + 2 ≤ n →
      ∃ r, seekPredecessor net geo route n ⟨i + 1, j⟩ acc = .ok r := by
  obtain ⟨x, y, m, hx, hy, hl⟩ := id hk
  obtain ⟨p, hp, hyk⟩ := id hy
  have hlt := (List.getElem?_eq_some_iff.1 hyk).1
  have at' : ∀ j < p.ranges.length, ∃ z, RangeAt route (i + 1) j z :=
    fun j hj => ⟨_, p, hp, List.getElem?_eq_getElem hj⟩
  intro d
  induction d with
  | zero =>
    intro j n acc hj hn
    obtain ⟨n, rfl⟩ : ∃ n', n = n' + 2 := ⟨n - 2, by omega⟩
    obtain rfl : j = k := by omega
    rcases straightPredecessor_total (geo := geo) ht hv hd hy with ⟨-, q, h⟩ | ⟨h, -⟩
    · refine ⟨(q, acc), ?_⟩
      simp [seekPredecessor, h, bind, Except.bind, pure, Except.pure]
    · exact absurd hk h
  | succ d ih =>
    intro j n acc hj hn
    obtain ⟨n, rfl⟩ : ∃ n', n = n' + 2 := ⟨n - 2, by omega⟩
    obtain ⟨z, hz⟩ := at' j (by omega)
    rcases straightPredecessor_total (geo := geo) ht hv hd hz with ⟨-, q, h⟩ | ⟨hno, h⟩
    · refine ⟨(q, acc), ?_⟩
      simp [seekPredecessor, h, bind, Except.bind, pure, Except.pure]
    · have hdir := (direction_spec (geo := geo) ht hv hd hz).1 ⟨k, by omega, hk⟩
      obtain ⟨z', hz'⟩ := at' (j + 1) (by omega)
      obtain ⟨r, hr⟩ := ih (j + 1) (n + 1) (z' :: acc) (by omega) (by omega)
      refine ⟨r, ?_⟩
      rw [seekPredecessor]
      have hg := rangeAt_getRange hz'
      push_cast at hg hr
      simp only [h, hdir, hg, bind, Except.bind]
      exact hr

theorem seek_down {net : RoadNet} {geo : Geo} (ht : 0 ≤ geo.tol) {route : List Phase} (hv : ValidRanges net route)
    (hd : Distinct geo.tol route) {i k : Nat} (hk : HasPredecessor net geo route i k) :
    ∀ (d j n : Nat) (acc : List LaneSRange), j = k + d → (∀ m > k, ¬HasPredecessor net geo route i m) → d + 2 ≤ n →
      (∃ z, RangeAt route (i + 1) j z) → ∃ r, seekPredecessor net geo route n ⟨i + 1, j⟩ acc = .ok r := by
  intro d
  induction d with
  | zero =>
    intro j n acc hj _ hn ⟨z, hz⟩
    obtain ⟨n, rfl⟩ : ∃ n', n = n' + 2 := ⟨n - 2, by omega⟩
    obtain rfl : j = k := by omega
    rcases straightPredecessor_total (geo := geo) ht hv hd hz with ⟨-, q, h⟩ | ⟨h, -⟩
    · refine ⟨(q, acc), ?_⟩
      simp [seekPredecessor, h, bind, Except.bind, pure, Except.pure]
    · exact absurd hk h
  | succ d ih =>
    intro j n acc hj hnone hn ⟨z, hz⟩
    obtain ⟨n, rfl⟩ : ∃ n', n = n' + 2 := ⟨n - 2, by omega⟩
    rcases straightPredecessor_total (geo := geo) ht hv hd hz with ⟨hh, -⟩ | ⟨hno, h⟩
    · exact absurd hh (hnone j (by omega))
    · have hdir := (direction_spec (geo := geo) ht hv hd hz).2 (fun m hm => hnone m (by omega)) (by omega)
      obtain ⟨p, hp, hzj⟩ := id hz
      have hlt := (List.getElem?_eq_some_iff.1 hzj).1
      have hz' : RangeAt route (i + 1) (k + d) (p.ranges[k + d]'(by omega)) :=
        ⟨p, hp, List.getElem?_eq_getElem _⟩
      obtain ⟨r, hr⟩ := ih (k + d) (n + 1) (p.ranges[k + d]'(by omega) :: acc) rfl hnone (by omega) ⟨_, hz'⟩
      refine ⟨r, ?_⟩
      rw [seekPredecessor]
      have hg := rangeAt_getRange hz'
      have e : (j : ℤ) + -1 = ((k + d : Nat) : ℤ) := by omega
      simp only [h, hdir, e, hg, bind, Except.bind]
      exact hr

/-- The inner loop succeeds whenever some range of the phase has a straight predecessor. -/
theorem seek_total {net : RoadNet} {geo : Geo} (ht : 0 ≤ geo.tol) {route : List Phase} (hv : ValidRanges net route)
    (hd : Distinct geo.tol route) {i j : Nat} {p : Phase} (hp : route[i + 1]? = some p) {z : LaneSRange}
    (hz : RangeAt route (i + 1) j z) (hex : ∃ k, HasPredecessor net geo route i k) (acc : List LaneSRange) :
    ∃ r, seekPredecessor net geo route (p.ranges.length + 1) ⟨i + 1, j⟩ acc = .ok r := by
  have size : ∀ k, HasPredecessor net geo route i k → k < p.ranges.length := by
    rintro k ⟨x, z, m, -, ⟨q, hq, hz⟩, -⟩
    rw [hp] at hq
    cases hq
    exact (List.getElem?_eq_some_iff.1 hz).1
  have hj : j < p.ranges.length := by
    obtain ⟨q, hq, hz⟩ := hz
    rw [hp] at hq
    cases hq
    exact (List.getElem?_eq_some_iff.1 hz).1
  by_cases hup : ∃ k ≥ j, HasPredecessor net geo route i k
  · obtain ⟨k, hk, hh⟩ := hup
    have := size k hh
    exact seek_up ht hv hd hh (k - j) j _ acc (by omega) (by omega)
  · have hnone : ∀ m ≥ j, ¬HasPredecessor net geo route i m := fun m hm h => hup ⟨m, hm, h⟩
    obtain ⟨k, hk⟩ := hex
    -- the largest one
    have hmax : ∃ k, HasPredecessor net geo route i k ∧ ∀ m > k, ¬HasPredecessor net geo route i m := by
      by_contra hcon
      have grow : ∀ n, ∃ k ≥ n, HasPredecessor net geo route i k := by
        intro n
        induction n with
        | zero => exact ⟨k, Nat.zero_le _, hk⟩
        | succ n ih =>
          obtain ⟨m, hm, hh⟩ := ih
          by_contra hno
          refine hcon ⟨m, hh, fun m' hm' hh' => hno ⟨m', by omega, hh'⟩⟩
      obtain ⟨m, hm, hh⟩ := grow p.ranges.length
      have := size m hh
      omega
    obtain ⟨k, hk, hmax⟩ := hmax
    have hkj : k < j := by
      by_contra hc
      exact hnone k (by omega) hk
    exact seek_down ht hv hd hk (j - k) j _ acc (by omega) hmax (by omega) ⟨z, hz⟩

/-! ### What the loops collect -/

/-- How two consecutive ranges of the result are connected. -/
def Step (net : RoadNet) (geo : Geo) (route : List Phase) (x y : LaneSRange) : Prop :=
  Beside route x y ∨ (InNextPhase route x y ∧ relation net geo route y x = .ok .precedingStraight)

/-- The ranges collected so far: a connected list that ends with `e`. -/
def Collected (net : RoadNet) (geo : Geo) (route : List Phase) (e : LaneSRange) (acc : List LaneSRange) : Prop :=
  acc.IsChain (Step net geo route) ∧ acc.getLast? = some e

theorem direction_unit {net : RoadNet} {geo : Geo} {route : List Phase} {i : Index} {d : ℤ}
    (h : direction net geo route i = .ok d) : d = 1 ∨ d = -1 := by
  unfold direction at h
  split at h
  · cases h
  · split at h
    · cases h; exact .inl rfl
    · split at h
      · cases h; exact .inr rfl
      · simp only [bind_ok, pure_ok] at h
        obtain ⟨b, -, h⟩ := h
        cases b
        · exact .inr h.symm
        · exact .inl h.symm

theorem beside_of_step {route : List Phase} {i j k : Nat} {x y : LaneSRange} (hx : RangeAt route i j x)
    (hy : RangeAt route i k y) (h : j = k + 1 ∨ k = j + 1) : Beside route x y := by
  rcases h with rfl | rfl
  · exact ⟨i, k, .inr ⟨hx, hy⟩⟩
  · exact ⟨i, j, .inl ⟨hx, hy⟩⟩

theorem collected_cons {net : RoadNet} {geo : Geo} {route : List Phase} {e x y : LaneSRange} {acc : List LaneSRange}
    (h : Collected net geo route e (y :: acc)) (hs : Step net geo route x y) :
    Collected net geo route e (x :: y :: acc) :=
  ⟨List.IsChain.cons_cons hs h.1, by rw [List.getLast?_cons_cons]; exact h.2⟩

theorem seek_sound {net : RoadNet} {geo : Geo} {route : List Phase} {e : LaneSRange} (n : Nat) :
    ∀ (i : Index) (r : LaneSRange) (acc : List LaneSRange) (p : Index) (acc' : List LaneSRange),
      getRange route i = .ok r → Collected net geo route e (r :: acc) →
      seekPredecessor net geo route n i (r :: acc) = .ok (p, acc') →
      ∃ x, getRange route p = .ok x ∧ p.phase + 1 = i.phase ∧ Collected net geo route e (x :: acc') := by
  induction n with
  | zero => intro i r acc p acc' _ _ h; cases h
  | succ n ih =>
    intro i r acc p acc' hr hc h
    simp only [seekPredecessor, bind_ok] at h
    obtain ⟨o, ho, h⟩ := h
    cases o with
    | some q =>
      dsimp only at h
      split at h
      · cases h
      · cases h
        obtain ⟨j, k, x, y, hj, hph, hk, hy, hx, hrel⟩ := straightPredecessor_some ho
        obtain ⟨j', hj', hr'⟩ := getRange_ok.1 hr
        obtain rfl : j = j' := by omega
        obtain rfl := rangeAt_unique hy hr'
        refine ⟨x, getRange_ok.2 ⟨k, hk, hx⟩, hph.symm, collected_cons hc (.inr ⟨⟨p.phase, k, j, hx, hph ▸ hy⟩, hrel⟩)⟩
    | none =>
      simp only [bind_ok] at h
      obtain ⟨d, hdir, r', hr', h⟩ := h
      have hd := direction_unit hdir
      obtain ⟨j, hj, hat⟩ := getRange_ok.1 hr
      obtain ⟨k, hk, hat'⟩ := getRange_ok.1 hr'
      dsimp only at hk hat'
      have hb : Beside route r' r := beside_of_step hat' hat (by omega)
      obtain ⟨x, h1, h2, h3⟩ := ih _ r' (r :: acc) p acc' hr' (collected_cons hc (.inl hb)) h
      exact ⟨x, h1, h2, h3⟩

theorem backwards_sound {net : RoadNet} {geo : Geo} {route : List Phase} {e : LaneSRange} {sp : Nat} (n : Nat) :
    ∀ (i : Index) (r : LaneSRange) (acc : List LaneSRange) (p : Index) (acc' : List LaneSRange),
      getRange route i = .ok r → Collected net geo route e (r :: acc) →
      backwards net geo route sp n i acc = .ok (p, acc') →
      ∃ x, getRange route p = .ok x ∧ p.phase = sp ∧ Collected net geo route e (x :: acc') := by
  induction n with
  | zero => intro i r acc p acc' _ _ h; cases h
  | succ n ih =>
    intro i r acc p acc' hr hc h
    rw [backwards] at h
    split at h
    · rename_i hsp
      cases h
      exact ⟨r, hr, hsp, hc⟩
    · simp only [bind_ok] at h
      obtain ⟨r', hr', q, hq, h⟩ := h
      rw [hr] at hr'
      cases hr'
      obtain ⟨x, h1, -, h3⟩ := seek_sound _ _ _ _ _ _ hr hc hq
      exact ih _ x _ _ _ h1 h3 h

theorem towardsStart_sound {net : RoadNet} {geo : Geo} {route : List Phase} {e s : LaneSRange} {si : Index}
    (hs : getRange route si = .ok s) (n : Nat) :
    ∀ (i : Index) (acc : List LaneSRange) (out : List LaneSRange),
      (∀ r, getRange route i = .ok r → Collected net geo route e (r :: acc)) →
      towardsStart net geo route si n i acc = .ok out →
      Collected net geo route e out ∧ ∃ x, out.head? = some x ∧ relation net geo route s x = .ok .coincident := by
  induction n with
  | zero => intro i acc out _ h; cases h
  | succ n ih =>
    intro i acc out hc h
    simp only [towardsStart, bind_ok, lift_ok] at h
    obtain ⟨x, hx, s', hs', rel, hrel, h⟩ := h
    rw [hs] at hs'
    cases hs'
    have hcx := hc x hx
    have step : ∀ d : ℤ, (d = 1 ∨ d = -1) → ∀ r, getRange route ⟨i.phase, i.range + d⟩ = .ok r →
        Collected net geo route e (r :: x :: acc) := by
      intro d hd r hr
      obtain ⟨j, hj, hat⟩ := getRange_ok.1 hx
      obtain ⟨k, hk, hat'⟩ := getRange_ok.1 hr
      dsimp only at hk hat'
      exact collected_cons hcx (.inl (beside_of_step hat' hat (by omega)))
    cases rel <;> dsimp only at h
    case left => exact ih _ _ _ (step (-1) (.inr rfl)) h
    case adjacentLeft => exact ih _ _ _ (step (-1) (.inr rfl)) h
    case right => exact ih _ _ _ (step 1 (.inl rfl)) h
    case adjacentRight => exact ih _ _ _ (step 1 (.inl rfl)) h
    case coincident =>
      cases h
      exact ⟨hcx, x, rfl, hrel⟩
    all_goals cases h

/-! ### Termination and completeness -/

theorem towardsStart_total {net : RoadNet} {geo : Geo} (ht : 0 ≤ geo.tol) {route : List Phase}
    (hv : ValidRanges net route) (hd : Distinct geo.tol route) {i js : Nat} {s : LaneSRange}
    (hs : RangeAt route i js s) :
    ∀ (d j n : Nat) (acc : List LaneSRange), (j + d = js ∨ js + d = j) → d < n → (∃ x, RangeAt route i j x) →
      ∃ out, towardsStart net geo route ⟨i, js⟩ n ⟨i, j⟩ acc = .ok out := by
  intro d
  induction d with
  | zero =>
    intro j n acc hj hn ⟨x, hx⟩
    obtain ⟨n, rfl⟩ : ∃ n', n = n' + 1 := ⟨n - 1, by omega⟩
    obtain rfl : j = js := by omega
    obtain ⟨rel, h1, h2⟩ := relation_of_distinct (geo := geo) ht hv hd hs hx
    obtain rfl := (h2 .coincident).1 ⟨rfl, rfl⟩
    obtain rfl := rangeAt_unique hs hx
    exact ⟨s :: acc, by
      simp [towardsStart, rangeAt_getRange hs, lift, h1, bind, Except.bind, pure, Except.pure]⟩
  | succ d ih =>
    intro j n acc hj hn ⟨x, hx⟩
    obtain ⟨n, rfl⟩ : ∃ n', n = n' + 1 := ⟨n - 1, by omega⟩
    obtain ⟨rel, h1, h2⟩ := relation_of_distinct (geo := geo) ht hv hd hs hx
    obtain ⟨p, hp, hxj⟩ := id hx
    obtain ⟨p', hp', hsj⟩ := id hs
    rw [hp] at hp'
    cases hp'
    have hlx := (List.getElem?_eq_some_iff.1 hxj).1
    have hls := (List.getElem?_eq_some_iff.1 hsj).1
    have at' : ∀ j < p.ranges.length, ∃ z, RangeAt route i j z :=
      fun j hj => ⟨_, p, hp, List.getElem?_eq_getElem hj⟩
    rcases hj with hj | hj
    · -- the start is further left
      obtain ⟨out, hout⟩ := ih (j + 1) n (x :: acc) (.inl (by omega)) (by omega) (at' _ (by omega))
      refine ⟨out, ?_⟩
      have hrel : rel = .right ∨ rel = .adjacentRight := by
        by_cases h : d = 0
        · exact .inr ((h2 .adjacentRight).1 ⟨rfl, by omega⟩).symm
        · exact .inl ((h2 .right).1 ⟨rfl, by omega⟩).symm
      push_cast at hout
      rcases hrel with rfl | rfl <;>
        simpa [towardsStart, rangeAt_getRange hx, rangeAt_getRange hs, lift, h1, bind, Except.bind] using hout
    · obtain ⟨j, rfl⟩ : ∃ j', j = j' + 1 := ⟨j - 1, by omega⟩
      obtain ⟨out, hout⟩ := ih j n (x :: acc) (.inr (by omega)) (by omega) (at' _ (by omega))
      refine ⟨out, ?_⟩
      have hrel : rel = .left ∨ rel = .adjacentLeft := by
        by_cases h : d = 0
        · exact .inr ((h2 .adjacentLeft).1 ⟨rfl, by omega⟩).symm
        · exact .inl ((h2 .left).1 ⟨rfl, by omega⟩).symm
      have e : ((j + 1 : Nat) : ℤ) - 1 = j := by omega
      have hx' := rangeAt_getRange hx
      rcases hrel with rfl | rfl <;>
        simp only [towardsStart, hx', rangeAt_getRange hs, lift, h1, bind, Except.bind, e] <;> exact hout

theorem backwards_total {net : RoadNet} {geo : Geo} (ht : 0 ≤ geo.tol) {route : List Phase}
    (hv : ValidRanges net route) (hd : Distinct geo.tol route) {sp : Nat} :
    ∀ (d i j n : Nat) (acc : List LaneSRange), i = sp + d → d < n → (∃ x, RangeAt route i j x) →
      (∀ k, sp ≤ k → k < i → ∃ m, HasPredecessor net geo route k m) →
      ∃ r, backwards net geo route sp n ⟨i, j⟩ acc = .ok r := by
  intro d
  induction d with
  | zero =>
    intro i j n acc hi hn _ _
    obtain ⟨n, rfl⟩ : ∃ n', n = n' + 1 := ⟨n - 1, by omega⟩
    exact ⟨(⟨i, j⟩, acc), by rw [backwards, if_pos (by simp; omega)]⟩
  | succ d ih =>
    intro i j n acc hi hn ⟨x, hx⟩ hp
    obtain ⟨n, rfl⟩ : ∃ n', n = n' + 1 := ⟨n - 1, by omega⟩
    obtain ⟨i, rfl⟩ : ∃ i', i = i' + 1 := ⟨i - 1, by omega⟩
    obtain ⟨p, hph, -⟩ := id hx
    obtain ⟨⟨q, acc'⟩, hq⟩ := seek_total (geo := geo) ht hv hd hph hx (hp i (by omega) (by omega)) (x :: acc)
    have hqv : ∃ k : Nat, q = ⟨i, k⟩ ∧ ∃ z, RangeAt route i k z := by
      have sound : ∀ n i' r acc q acc', getRange route i' = .ok r →
          seekPredecessor net geo route n i' (r :: acc) = .ok (q, acc') →
          q.phase + 1 = i'.phase ∧ ∃ x, getRange route q = .ok x := by
        intro n
        induction n with
        | zero => intro i' r acc q acc' _ h; cases h
        | succ n ih =>
          intro i' r acc q acc' hr h
          simp only [seekPredecessor, bind_ok] at h
          obtain ⟨o, ho, h⟩ := h
          cases o with
          | some q' =>
            dsimp only at h
            split at h
            · cases h
            · cases h
              obtain ⟨j, k, x, y, -, hph, hk, -, hx, -⟩ := straightPredecessor_some ho
              exact ⟨hph.symm, x, getRange_ok.2 ⟨k, hk, hx⟩⟩
          | none =>
            simp only [bind_ok] at h
            obtain ⟨d, -, r', hr', h⟩ := h
            exact ih ⟨i'.phase, i'.range + d⟩ r' (r :: acc) q acc' hr' h
      obtain ⟨h1, z, h2⟩ := sound _ _ _ _ _ _ (rangeAt_getRange hx) hq
      obtain ⟨k, hk, hz⟩ := getRange_ok.1 h2
      have hqi : q.phase = i := by simpa using h1
      exact ⟨k, by cases q; simp_all, z, hqi ▸ hz⟩
    obtain ⟨k, rfl, hz⟩ := hqv
    obtain ⟨r, hr⟩ := ih i k n acc' (by omega) (by omega) hz (fun m h1 h2 => hp m h1 (by omega))
    refine ⟨r, ?_⟩
    rw [backwards, if_neg (by simp; omega)]
    simp only [rangeAt_getRange hx, hph, hq, bind, Except.bind]
    exact hr

theorem towardsStart_succ {net : RoadNet} {geo : Geo} {route : List Phase} {si : Index} (n : Nat) :
    ∀ (i : Index) (acc : List LaneSRange), towardsStart net geo route si n i acc ≠ .error .depth →
      towardsStart net geo route si (n + 1) i acc = towardsStart net geo route si n i acc := by
  induction n with
  | zero => intro i acc h; exact absurd rfl h
  | succ n ih =>
    intro i acc h
    rw [towardsStart] at h
    rw [towardsStart, towardsStart]
    generalize lift (getRange route i) = a at h ⊢
    rcases a with _ | x
    · rfl
    · generalize lift (getRange route si) = b at h ⊢
      rcases b with _ | s
      · rfl
      · simp only [bind, Except.bind] at h ⊢
        generalize lift (relation net geo route s x) = c at h ⊢
        rcases c with _ | rel
        · rfl
        · cases rel <;> dsimp only at h ⊢
          all_goals first | rfl | exact ih _ _ h

end Maliput.Route
